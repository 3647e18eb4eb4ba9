import Verif.Lemmas.FrontUnit2
import Verif.Lemmas.WeakLaw
import Verif.Spec.ArmsTest2

/-!
# The variance of the front-door score on the data of the front-door example
-/

set_option linter.unusedSectionVars false
set_option linter.unusedSimpArgs false

namespace Verif
open MeasureTheory ProbabilityTheory Filter Topology
namespace Example
open Section5

variable {Ω : Type} [MeasurableSpace Ω] {P : Measure Ω} [IsProbabilityMeasure P] {T : Ω → (ℝ × ℝ) × ℝ × ℝ} {p beta gamma alpha1 alpha2 : ℝ}

section
variable (hT : Measurable T) (hl : P.map T = fourLaw)
include hT hl

theorem normal3_sq_memLp : MemLp (fun ω => (T ω).2.2 ^ 2) 2 P := by
  have h := normal3_memLp hT hl 4 (by norm_num)
  have : MemLp (fun ω => ‖(T ω).2.2‖ ^ (2 : ENNReal).toReal) (4 / 2) P := h.norm_rpow_div 2
  have e : (4 / 2 : ENNReal) = 2 := by
    rw [show (4 : ENNReal) = 2 * 2 by norm_num]
    exact ENNReal.mul_div_cancel_right (by norm_num) (by norm_num)
  rw [e] at this
  simpa using this

/-- the mean of a quadratic function of the noise -/
theorem quad3_integral (hp : 0 ≤ p ∧ p ≤ 1) (A B C : ℝ → ℝ → ℝ → ℝ) :
    ∫ ω, (A (uxz p beta alpha1 (T ω)).1 (uxz p beta alpha1 (T ω)).2.1 (uxz p beta alpha1 (T ω)).2.2 +
        B (uxz p beta alpha1 (T ω)).1 (uxz p beta alpha1 (T ω)).2.1 (uxz p beta alpha1 (T ω)).2.2 * (T ω).2.2 +
        C (uxz p beta alpha1 (T ω)).1 (uxz p beta alpha1 (T ω)).2.1 (uxz p beta alpha1 (T ω)).2.2 * (T ω).2.2 ^ 2) ∂P =
      frontMean p beta alpha1 fun u x z => A u x z + C u x z := by
  let F : (ℝ × ℝ) × ℝ × ℝ → ℝ := fun q => A (uxz p beta alpha1 q).1 (uxz p beta alpha1 q).2.1 (uxz p beta alpha1 q).2.2 +
    B (uxz p beta alpha1 q).1 (uxz p beta alpha1 q).2.1 (uxz p beta alpha1 q).2.2 * q.2.2 +
    C (uxz p beta alpha1 q).1 (uxz p beta alpha1 q).2.1 (uxz p beta alpha1 q).2.2 * q.2.2 ^ 2
  have hF : Measurable F := by
    have h1 := measurable_table3 (p := p) (beta := beta) (alpha1 := alpha1) A
    have h2 := measurable_table3 (p := p) (beta := beta) (alpha1 := alpha1) B
    have h3 := measurable_table3 (p := p) (beta := beta) (alpha1 := alpha1) C
    exact (h1.add (h2.mul (measurable_snd.comp measurable_snd))).add (h3.mul ((measurable_snd.comp measurable_snd).pow_const 2))
  have hi : Integrable (fun ω => F (T ω)) P :=
    (((table3_memLp hT hl A 1).integrable le_rfl).add ((table3_mul_memLp hT hl B (normal3_memLp hT hl 1 (by simp))).integrable le_rfl)).add
      ((table3_mul_memLp hT hl C (normal3_sq_memLp hT hl)).integrable (by norm_num))
  have hi' : Integrable F fourLaw := by
    rw [← hl]
    exact (integrable_map_measure hF.aestronglyMeasurable hT.aemeasurable).2 hi
  show ∫ ω, F (T ω) ∂P = _
  rw [← integral_map hT.aemeasurable hF.aestronglyMeasurable, hl]
  unfold fourLaw at hi' ⊢
  rw [integral_prod _ hi']
  have hi2 := hi'.prod_right_ae
  have hi3 := hi'.integral_prod_left
  unfold frontMean
  rw [integral_prod _ hi3, ← front_int hp (fun u x z => A u x z + C u x z), intervalIntegral.integral_of_le zero_le_one,
    ← Measure.restrict_congr_set (Ico_ae_eq_Ioc (a := (0 : ℝ)) (b := 1))]
  have hi4 := Measure.ae_ae_of_ae_prod hi2
  refine integral_congr_ae ?_
  filter_upwards [hi4] with u hu
  rw [intervalIntegral.integral_of_le zero_le_one, ← Measure.restrict_congr_set (Ico_ae_eq_Ioc (a := (0 : ℝ)) (b := 1))]
  refine integral_congr_ae ?_
  filter_upwards [hu] with v hv
  rw [integral_prod _ hv, intervalIntegral.integral_of_le zero_le_one, ← Measure.restrict_congr_set (Ico_ae_eq_Ioc (a := (0 : ℝ)) (b := 1))]
  refine integral_congr_ae (Eventually.of_forall fun t => ?_)
  exact gauss_quad (A (fU p u) (fX p alpha1 u v) (fZ beta (fX p alpha1 u v) t)) (B (fU p u) (fX p alpha1 u v) (fZ beta (fX p alpha1 u v) t))
    (C (fU p u) (fX p alpha1 u v) (fZ beta (fX p alpha1 u v) t))

end

/-! ## The score -/

variable {mu : ℝ → ℝ → ℝ}

/-- the score of the unit with given random numbers -/
noncomputable def scoreOf (p beta gamma alpha1 alpha2 : ℝ) (mu : ℝ → ℝ → ℝ) (q : (ℝ × ℝ) × ℝ × ℝ) : ℝ :=
  frontScore p beta gamma alpha1 alpha2 mu (uxz p beta alpha1 q).1 (uxz p beta alpha1 q).2.1 (uxz p beta alpha1 q).2.2 q.2.2

theorem frontScore_affine (u x z t : ℝ) : frontScore p beta gamma alpha1 alpha2 mu u x z t = frontScore p beta gamma alpha1 alpha2 mu u x z 0 +
    (frontScore p beta gamma alpha1 alpha2 mu u x z 1 - frontScore p beta gamma alpha1 alpha2 mu u x z 0) * t := by
  unfold frontScore frontDoorPoint
  dsimp only
  ring

/-- the score without noise -/
noncomputable def base (p beta gamma alpha1 alpha2 : ℝ) (mu : ℝ → ℝ → ℝ) (u x z : ℝ) : ℝ := frontScore p beta gamma alpha1 alpha2 mu u x z 0

/-- the coefficient of the noise -/
noncomputable def slope (p beta gamma alpha1 alpha2 : ℝ) (mu : ℝ → ℝ → ℝ) (u x z : ℝ) : ℝ :=
  frontScore p beta gamma alpha1 alpha2 mu u x z 1 - frontScore p beta gamma alpha1 alpha2 mu u x z 0

theorem scoreOf_eq (T : Ω → (ℝ × ℝ) × ℝ × ℝ) : (fun ω => scoreOf p beta gamma alpha1 alpha2 mu (T ω)) = fun ω =>
    base p beta gamma alpha1 alpha2 mu (uxz p beta alpha1 (T ω)).1 (uxz p beta alpha1 (T ω)).2.1 (uxz p beta alpha1 (T ω)).2.2 +
    slope p beta gamma alpha1 alpha2 mu (uxz p beta alpha1 (T ω)).1 (uxz p beta alpha1 (T ω)).2.1 (uxz p beta alpha1 (T ω)).2.2 * (T ω).2.2 :=
  funext fun _ => frontScore_affine _ _ _ _

theorem scoreOf_sq (T : Ω → (ℝ × ℝ) × ℝ × ℝ) : (fun ω => scoreOf p beta gamma alpha1 alpha2 mu (T ω) ^ 2) = fun ω =>
    (fun u x z => base p beta gamma alpha1 alpha2 mu u x z ^ 2) (uxz p beta alpha1 (T ω)).1 (uxz p beta alpha1 (T ω)).2.1 (uxz p beta alpha1 (T ω)).2.2 +
    (fun u x z => 2 * base p beta gamma alpha1 alpha2 mu u x z * slope p beta gamma alpha1 alpha2 mu u x z)
      (uxz p beta alpha1 (T ω)).1 (uxz p beta alpha1 (T ω)).2.1 (uxz p beta alpha1 (T ω)).2.2 * (T ω).2.2 +
    (fun u x z => slope p beta gamma alpha1 alpha2 mu u x z ^ 2)
      (uxz p beta alpha1 (T ω)).1 (uxz p beta alpha1 (T ω)).2.1 (uxz p beta alpha1 (T ω)).2.2 * (T ω).2.2 ^ 2 := by
  funext ω
  rw [congrFun (scoreOf_eq T) ω]
  ring

theorem measurable_scoreOf : Measurable (scoreOf p beta gamma alpha1 alpha2 mu) := by
  have e := scoreOf_eq (p := p) (beta := beta) (gamma := gamma) (alpha1 := alpha1) (alpha2 := alpha2) (mu := mu) (fun q : (ℝ × ℝ) × ℝ × ℝ => q)
  rw [show scoreOf p beta gamma alpha1 alpha2 mu = fun q => scoreOf p beta gamma alpha1 alpha2 mu q from rfl, e]
  have h1 := measurable_table3 (p := p) (beta := beta) (alpha1 := alpha1) (base p beta gamma alpha1 alpha2 mu)
  have h2 := measurable_table3 (p := p) (beta := beta) (alpha1 := alpha1) (slope p beta gamma alpha1 alpha2 mu)
  exact h1.add (h2.mul (measurable_snd.comp measurable_snd))

section
variable (hT : Measurable T) (hl : P.map T = fourLaw)
include hT hl

theorem scoreOf_memLp : MemLp (fun ω => scoreOf p beta gamma alpha1 alpha2 mu (T ω)) 2 P := by
  rw [scoreOf_eq T]
  exact (table3_memLp hT hl (base p beta gamma alpha1 alpha2 mu) 2).add (table3_mul_memLp hT hl (slope p beta gamma alpha1 alpha2 mu) (normal3_memLp hT hl 2 (by norm_num)))

theorem scoreOf_sq_memLp : MemLp (fun ω => scoreOf p beta gamma alpha1 alpha2 mu (T ω) ^ 2) 2 P := by
  rw [scoreOf_sq T]
  exact ((table3_memLp hT hl (fun u x z => base p beta gamma alpha1 alpha2 mu u x z ^ 2) 2).add
    (table3_mul_memLp hT hl (fun u x z => 2 * base p beta gamma alpha1 alpha2 mu u x z * slope p beta gamma alpha1 alpha2 mu u x z) (normal3_memLp hT hl 2 (by norm_num)))).add
    (table3_mul_memLp hT hl (fun u x z => slope p beta gamma alpha1 alpha2 mu u x z ^ 2) (normal3_sq_memLp hT hl))

theorem scoreOf_mean (hp : 0 ≤ p ∧ p ≤ 1) : ∫ ω, scoreOf p beta gamma alpha1 alpha2 mu (T ω) ∂P =
    frontMean p beta alpha1 fun u x z => frontScore p beta gamma alpha1 alpha2 mu u x z 0 := by
  rw [scoreOf_eq T]
  exact affine3_integral hT hl hp (base p beta gamma alpha1 alpha2 mu) (slope p beta gamma alpha1 alpha2 mu)

theorem scoreOf_sq_mean (hp : 0 ≤ p ∧ p ≤ 1) : ∫ ω, scoreOf p beta gamma alpha1 alpha2 mu (T ω) ^ 2 ∂P =
    frontMean p beta alpha1 fun u x z => frontScore p beta gamma alpha1 alpha2 mu u x z 0 ^ 2 +
      (frontScore p beta gamma alpha1 alpha2 mu u x z 1 - frontScore p beta gamma alpha1 alpha2 mu u x z 0) ^ 2 := by
  rw [scoreOf_sq T]
  exact quad3_integral hT hl hp (fun u x z => base p beta gamma alpha1 alpha2 mu u x z ^ 2)
    (fun u x z => 2 * base p beta gamma alpha1 alpha2 mu u x z * slope p beta gamma alpha1 alpha2 mu u x z) (fun u x z => slope p beta gamma alpha1 alpha2 mu u x z ^ 2)

theorem scoreOf_variance (hp : 0 ≤ p ∧ p ≤ 1) : Var[fun ω => scoreOf p beta gamma alpha1 alpha2 mu (T ω); P] = frontVariance p beta gamma alpha1 alpha2 mu := by
  rw [variance_eq_sub (scoreOf_memLp hT hl)]
  unfold frontVariance
  rw [← scoreOf_mean hT hl hp, ← scoreOf_sq_mean hT hl hp]
  rfl

end

/-! ## Conditional probabilities only matter for exposures and mediators 0 and 1 -/

theorem point_congr {κ q : ℝ} {c c' : ℝ → ℝ → ℝ} (h : ∀ x, x = 0 ∨ x = 1 → ∀ z, z = 0 ∨ z = 1 → c x z = c' x z) {v : (Fin 1 → ℝ) × ℝ × ℝ} (hx : v.2.1 = 0 ∨ v.2.1 = 1)
    (hz : v.1 0 = 0 ∨ v.1 0 = 1) : frontDoorPoint κ q mu c {0, 1} v = frontDoorPoint κ q mu c' {0, 1} v := by
  have hs : ∀ a ∈ ({0, 1} : Finset ℤ), (a : ℝ) = 0 ∨ (a : ℝ) = 1 := by
    intro a ha
    rcases Finset.mem_insert.1 ha with rfl | ha
    · simp
    · rw [Finset.mem_singleton.1 ha]; simp
  have e : ∑ a ∈ ({0, 1} : Finset ℤ), mu v.2.1 a * (c 1 a - c 0 a) = ∑ a ∈ ({0, 1} : Finset ℤ), mu v.2.1 a * (c' 1 a - c' 0 a) :=
    Finset.sum_congr rfl fun a ha => by rw [h 1 (Or.inr rfl) _ (hs a ha), h 0 (Or.inl rfl) _ (hs a ha)]
  unfold frontDoorPoint
  rw [e, h _ hx _ hz, h 1 (Or.inr rfl) _ hz, h 0 (Or.inl rfl) _ hz]

theorem point_scoreOf {c : ℝ → ℝ → ℝ} (h : ∀ x, x = 0 ∨ x = 1 → ∀ z, z = 0 ∨ z = 1 → c x z = frontCond beta x z) (q : (ℝ × ℝ) × ℝ × ℝ) :
    frontDoorPoint (1 / 20) (expo p alpha1) mu c {0, 1} ((mediatorUnit p beta gamma alpha1 alpha2 q).point 1) = scoreOf p beta gamma alpha1 alpha2 mu q := by
  obtain ⟨-, hx, hz⟩ := uxz_cases p beta alpha1 q
  rw [mediatorUnit_point]
  rw [point_congr (c' := frontCond beta) h hx hz]
  rfl

theorem plane_true (x z : ℝ) : planeValue (mediatorCoef p gamma alpha1 alpha2) x z = trueResponse p gamma alpha1 alpha2 x z := by
  have e : 1 - expo p alpha1 = p * (1 - logistic alpha1) + (1 - p) / 2 := by unfold expo; ring
  unfold planeValue mediatorCoef trueResponse unexposedMean exposedMean
  rw [e]
  simp only [Matrix.cons_val_zero, Matrix.cons_val_one, Matrix.cons_val]
  unfold expo
  ring

/-- the limit of the scores of the arm -/
theorem limit_scoreOf (hT : Measurable T) (hl : P.map T = fourLaw) (hp : 0 < p ∧ p < 1) (h1 : 1 / 4 < logistic alpha1 ∧ logistic alpha1 < 3 / 4) (q : (ℝ × ℝ) × ℝ × ℝ) :
    frontDoorLimit P (fun ω => (mediatorUnit p beta gamma alpha1 alpha2 (T ω)).point 1) (1 / 20) (mediatorCoef p gamma alpha1 alpha2) {0, 1}
      ((mediatorUnit p beta gamma alpha1 alpha2 q).point 1) = scoreOf p beta gamma alpha1 alpha2 (trueResponse p gamma alpha1 alpha2) q := by
  unfold frontDoorLimit
  rw [mediator_row hT hl hp (Or.inr rfl), if_pos rfl, clamp_id hT hl hp h1 (by norm_num) (expo_mem hp h1), point_scoreOf fun x hx z hz => mediator_cond hT hl hp h1 hx hz]
  congr 1
  funext x z
  exact plane_true x z

end Example
end Verif
