import Verif.Lemmas.Numbers
import Verif.Lemmas.PopLogistic2
import Verif.Lemmas.AipwLimit2
import Mathlib.Tactic.NormNum

/-!
# The population of the back-door example
-/

set_option linter.unusedSectionVars false
set_option linter.unusedSimpArgs false

namespace Verif
namespace Example
open MeasureTheory ProbabilityTheory Section5

/-- one unit of the back-door example -/
noncomputable def backUnit (p beta alpha : ℝ) (q : ℝ × ℝ × ℝ) : Obs ℝ :=
  ⟨[.int (trunc (bZ p q.1))], .int (trunc (bX p alpha q.1 q.2.1)), .flt (bY p beta q.1 (bX p alpha q.1 q.2.1) q.2.2)⟩

theorem bit_cases (q u : ℝ) : bit q u = 0 ∨ bit q u = 1 := by unfold bit; split <;> simp

theorem trunc_bit (q u : ℝ) : ((trunc (bit q u) : ℤ) : ℝ) = bit q u := by
  rcases bit_cases q u with h | h <;> rw [h] <;> simp [trunc]

/-- exposure and covariate -/
noncomputable def zx (p alpha : ℝ) (q : ℝ × ℝ × ℝ) : ℝ × ℝ := (bZ p q.1, bX p alpha q.1 q.2.1)

theorem zx_cases (p alpha : ℝ) (q : ℝ × ℝ × ℝ) : ((zx p alpha q).1 = 0 ∨ (zx p alpha q).1 = 1) ∧ ((zx p alpha q).2 = 0 ∨ (zx p alpha q).2 = 1) :=
  ⟨bit_cases _ _, bit_cases _ _⟩

theorem backUnit_point (p beta alpha : ℝ) (q : ℝ × ℝ × ℝ) : (backUnit p beta alpha q).point 1 =
    (fun _ => (zx p alpha q).1, (zx p alpha q).2, 10 * (zx p alpha q).2 + beta * (zx p alpha q).1 + q.2.2) := by
  refine Prod.ext (funext fun j => ?_) (Prod.ext ?_ rfl)
  · rw [Subsingleton.elim j 0]
    exact trunc_bit _ _
  · exact trunc_bit _ _

theorem measurable_bit {T : Type} [MeasurableSpace T] {f g : T → ℝ} (hf : Measurable f) (hg : Measurable g) : Measurable fun t => bit (f t) (g t) :=
  Measurable.ite (measurableSet_lt hg hf) measurable_const measurable_const

theorem measurable_zx (p alpha : ℝ) : Measurable (zx p alpha) := by
  have h1 : Measurable fun q : ℝ × ℝ × ℝ => bit p q.1 := measurable_bit measurable_const measurable_fst
  exact h1.prodMk (measurable_bit ((h1.const_mul alpha).const_add _) (measurable_fst.comp measurable_snd))

theorem table (A : ℝ → ℝ → ℝ) {z x : ℝ} (hz : z = 0 ∨ z = 1) (hx : x = 0 ∨ x = 1) :
    A z x = z * x * A 1 1 + z * (1 - x) * A 1 0 + (1 - z) * x * A 0 1 + (1 - z) * (1 - x) * A 0 0 := by
  rcases hz with rfl | rfl <;> rcases hx with rfl | rfl <;> ring

theorem measurable_table (p alpha : ℝ) (A : ℝ → ℝ → ℝ) : Measurable fun q => A (zx p alpha q).1 (zx p alpha q).2 := by
  have h1 : Measurable fun q => (zx p alpha q).1 := measurable_fst.comp (measurable_zx p alpha)
  have h2 : Measurable fun q => (zx p alpha q).2 := measurable_snd.comp (measurable_zx p alpha)
  simp only [fun q => table A (zx_cases p alpha q).1 (zx_cases p alpha q).2]
  exact ((((h1.mul h2).mul_const _).add ((h1.mul (measurable_const.sub h2)).mul_const _)).add (((measurable_const.sub h1).mul h2).mul_const _)).add
    (((measurable_const.sub h1).mul (measurable_const.sub h2)).mul_const _)

theorem table_bound (p alpha : ℝ) (A : ℝ → ℝ → ℝ) (q : ℝ × ℝ × ℝ) : |A (zx p alpha q).1 (zx p alpha q).2| ≤ |A 1 1| + |A 1 0| + |A 0 1| + |A 0 0| := by
  have a1 := abs_nonneg (A 1 1)
  have a2 := abs_nonneg (A 1 0)
  have a3 := abs_nonneg (A 0 1)
  have a4 := abs_nonneg (A 0 0)
  obtain ⟨h1 | h1, h2 | h2⟩ := zx_cases p alpha q <;> rw [h1, h2] <;> linarith

variable {Ω : Type} [MeasurableSpace Ω] {P : Measure Ω} [IsProbabilityMeasure P] {T : Ω → ℝ × ℝ × ℝ} {p beta alpha : ℝ}

section
variable (hT : Measurable T) (hl : P.map T = unitLaw)
include hT hl

theorem normal_memLp (r : ENNReal) (hr : r ≠ ⊤) : MemLp (fun ω => (T ω).2.2) r P := by
  have h1 : MemLp (fun q : ℝ × ℝ × ℝ => q.2.2) r unitLaw := by
    unfold unitLaw
    exact ((memLp_id_gaussianReal' r hr).comp_snd _).comp_snd _
  rw [← hl] at h1
  exact h1.comp_of_map hT.aemeasurable

theorem table_memLp (A : ℝ → ℝ → ℝ) (r : ENNReal) : MemLp (fun ω => A (zx p alpha (T ω)).1 (zx p alpha (T ω)).2) r P :=
  MemLp.of_bound ((measurable_table p alpha A).comp hT).aestronglyMeasurable _ (Filter.Eventually.of_forall fun ω => table_bound p alpha A (T ω))

theorem table_mul_memLp (A : ℝ → ℝ → ℝ) {f : Ω → ℝ} {r : ENNReal} (hf : MemLp f r P) : MemLp (fun ω => A (zx p alpha (T ω)).1 (zx p alpha (T ω)).2 * f ω) r P := by
  refine hf.of_le_mul (c := |A 1 1| + |A 1 0| + |A 0 1| + |A 0 0|) (((measurable_table p alpha A).comp hT).aestronglyMeasurable.mul hf.1) (Filter.Eventually.of_forall fun ω => ?_)
  rw [norm_mul]
  exact mul_le_mul_of_nonneg_right (table_bound p alpha A (T ω)) (norm_nonneg _)

theorem quad_integral (hp : 0 ≤ p ∧ p ≤ 1) (ha : 0 ≤ 1 / 2 + alpha ∧ 1 / 2 + alpha ≤ 1) (A B C : ℝ → ℝ → ℝ) :
    ∫ ω, (A (zx p alpha (T ω)).1 (zx p alpha (T ω)).2 + B (zx p alpha (T ω)).1 (zx p alpha (T ω)).2 * (T ω).2.2 + C (zx p alpha (T ω)).1 (zx p alpha (T ω)).2 * (T ω).2.2 ^ 2) ∂P =
      p * ((1 / 2 + alpha) * (A 1 1 + C 1 1) + (1 / 2 - alpha) * (A 1 0 + C 1 0)) + (1 - p) * (1 / 2 * (A 0 1 + C 0 1) + 1 / 2 * (A 0 0 + C 0 0)) := by
  have hf : Measurable fun q : ℝ × ℝ × ℝ => A (zx p alpha q).1 (zx p alpha q).2 + B (zx p alpha q).1 (zx p alpha q).2 * q.2.2 + C (zx p alpha q).1 (zx p alpha q).2 * q.2.2 ^ 2 := by
    have h1 := measurable_table p alpha A
    have h2 := measurable_table p alpha B
    have h3 := measurable_table p alpha C
    have h4 : Measurable fun q : ℝ × ℝ × ℝ => q.2.2 := measurable_snd.comp measurable_snd
    exact (h1.add (h2.mul h4)).add (h3.mul (h4.pow_const 2))
  have hi : Integrable (fun ω => A (zx p alpha (T ω)).1 (zx p alpha (T ω)).2 + B (zx p alpha (T ω)).1 (zx p alpha (T ω)).2 * (T ω).2.2 +
      C (zx p alpha (T ω)).1 (zx p alpha (T ω)).2 * (T ω).2.2 ^ 2) P := by
    refine (((table_memLp hT hl A 1).integrable le_rfl).add ((table_mul_memLp hT hl B (normal_memLp hT hl 1 (by simp))).integrable le_rfl)).add
      ((table_mul_memLp hT hl C (r := 1) (f := fun ω => (T ω).2.2 ^ 2) ?_).integrable le_rfl)
    exact (memLp_one_iff_integrable.2 (normal_memLp hT hl 2 (by simp)).integrable_sq)
  have hi' : Integrable (fun q : ℝ × ℝ × ℝ => A (zx p alpha q).1 (zx p alpha q).2 + B (zx p alpha q).1 (zx p alpha q).2 * q.2.2 + C (zx p alpha q).1 (zx p alpha q).2 * q.2.2 ^ 2) unitLaw := by
    rw [← hl]
    exact (integrable_map_measure hf.aestronglyMeasurable hT.aemeasurable).2 hi
  rw [show (fun ω => A (zx p alpha (T ω)).1 (zx p alpha (T ω)).2 + B (zx p alpha (T ω)).1 (zx p alpha (T ω)).2 * (T ω).2.2 +
      C (zx p alpha (T ω)).1 (zx p alpha (T ω)).2 * (T ω).2.2 ^ 2) = fun ω => (fun q : ℝ × ℝ × ℝ => A (zx p alpha q).1 (zx p alpha q).2 + B (zx p alpha q).1 (zx p alpha q).2 * q.2.2 +
      C (zx p alpha q).1 (zx p alpha q).2 * q.2.2 ^ 2) (T ω) from rfl,
    ← integral_map hT.aemeasurable hf.aestronglyMeasurable, hl]
  unfold unitLaw at hi' ⊢
  rw [integral_prod _ hi']
  have hi2 := hi'.prod_right_ae
  rw [← back_int hp ha fun z x => A z x + C z x, intervalIntegral.integral_of_le zero_le_one, ← Measure.restrict_congr_set (Ico_ae_eq_Ioc (a := (0 : ℝ)) (b := 1))]
  refine integral_congr_ae ?_
  filter_upwards [hi2] with u hu
  rw [integral_prod _ hu, intervalIntegral.integral_of_le zero_le_one, ← Measure.restrict_congr_set (Ico_ae_eq_Ioc (a := (0 : ℝ)) (b := 1))]
  refine integral_congr_ae (Filter.Eventually.of_forall fun v => ?_)
  exact gauss_quad (A (bZ p u) (bX p alpha u v)) (B (bZ p u) (bX p alpha u v)) (C (bZ p u) (bX p alpha u v))

theorem table_integral (hp : 0 ≤ p ∧ p ≤ 1) (ha : 0 ≤ 1 / 2 + alpha ∧ 1 / 2 + alpha ≤ 1) (A : ℝ → ℝ → ℝ) :
    ∫ ω, A (zx p alpha (T ω)).1 (zx p alpha (T ω)).2 ∂P =
      p * ((1 / 2 + alpha) * A 1 1 + (1 / 2 - alpha) * A 1 0) + (1 - p) * (1 / 2 * A 0 1 + 1 / 2 * A 0 0) := by
  have := quad_integral hT hl hp ha A (fun _ _ => 0) fun _ _ => 0
  simpa using this

end
end Example
end Verif
