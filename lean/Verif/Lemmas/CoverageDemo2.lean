import Verif.Spec.Coverage
import Mathlib.Probability.Independence.InfinitePi
import Mathlib.Probability.Moments.SubGaussian
import Mathlib.MeasureTheory.Integral.Bochner.Basic

/-!
# Independent observations of a three-point distribution

Used by the examples and counterexamples of C89-C91.
-/

namespace Verif
open MeasureTheory ProbabilityTheory

/-- `-a`, `0`, `a` with probabilities 1/4, 1/2, 1/4 -/
noncomputable def threePoint (a : ℝ) : Measure ℝ :=
  ENNReal.ofReal (1 / 4) • Measure.dirac (-a) + ENNReal.ofReal (1 / 2) • Measure.dirac 0 + ENNReal.ofReal (1 / 4) • Measure.dirac a

instance (a : ℝ) : IsProbabilityMeasure (threePoint a) := by
  constructor
  simp only [threePoint, Measure.coe_add, Measure.coe_smul, Pi.add_apply, Pi.smul_apply, measure_univ, smul_eq_mul, mul_one]
  rw [← ENNReal.ofReal_add (by norm_num) (by norm_num), ← ENNReal.ofReal_add (by norm_num) (by norm_num)]
  norm_num

theorem integral_threePoint (a : ℝ) (f : ℝ → ℝ) : ∫ x, f x ∂threePoint a = 1 / 4 * f (-a) + 1 / 2 * f 0 + 1 / 4 * f a := by
  unfold threePoint
  have i1 : ∀ (c : ℝ) (x : ℝ), Integrable f (ENNReal.ofReal c • Measure.dirac x) := fun c x =>
    (integrable_dirac (by simp)).smul_measure ENNReal.ofReal_ne_top
  rw [integral_add_measure ((i1 _ _).add_measure (i1 _ _)) (i1 _ _), integral_add_measure (i1 _ _) (i1 _ _),
    integral_smul_measure, integral_smul_measure, integral_smul_measure, integral_dirac, integral_dirac, integral_dirac]
  simp only [smul_eq_mul]
  rw [ENNReal.toReal_ofReal (by norm_num), ENNReal.toReal_ofReal (by norm_num)]

theorem threePoint_mem (a : ℝ) (ha : 0 ≤ a) : ∀ᵐ x ∂threePoint a, x ∈ Set.Icc (-a) a := by
  unfold threePoint
  rw [ae_add_measure_iff, ae_add_measure_iff]
  refine ⟨⟨?_, ?_⟩, ?_⟩ <;> refine Measure.ae_smul_measure ?_ _ <;> rw [ae_dirac_eq, Filter.eventually_pure] <;> constructor <;> linarith

/-- the observations: the coordinates of a sequence -/
def coord (i : ℕ) (ω : ℕ → ℝ) : ℝ := ω i

/-- independent draws from `μ` -/
noncomputable def draws (μ : Measure ℝ) : Measure (ℕ → ℝ) := Measure.infinitePi fun _ => μ

instance (μ : Measure ℝ) [IsProbabilityMeasure μ] : IsProbabilityMeasure (draws μ) := by
  unfold draws; infer_instance

variable {μ : Measure ℝ} [IsProbabilityMeasure μ]

theorem map_coord (i : ℕ) : (draws μ).map (coord i) = μ := Measure.infinitePi_map_eval (fun _ => μ) i

theorem measurable_coord (i : ℕ) : Measurable (coord i) := measurable_pi_apply i

theorem iid_coord : Iid (draws μ) coord where
  indep := iIndepFun_infinitePi (P := fun _ : ℕ => μ) (X := fun _ x => x) fun _ => measurable_id
  ident i := ⟨(measurable_coord i).aemeasurable, (measurable_coord 0).aemeasurable, by rw [map_coord, map_coord]⟩

theorem integral_coord (f : ℝ → ℝ) (hf : Measurable f) (i : ℕ) : ∫ ω, f (coord i ω) ∂draws μ = ∫ x, f x ∂μ := by
  rw [← integral_map (measurable_coord i).aemeasurable (by rw [map_coord]; exact hf.aestronglyMeasurable), map_coord]

theorem mean_three (a : ℝ) : (draws (threePoint a))[coord 0] = 0 := by
  have := integral_coord (μ := threePoint a) (fun x => x) measurable_id 0
  rw [this, integral_threePoint]; ring

theorem var_three (a : ℝ) : Var[coord 0; draws (threePoint a)] = a ^ 2 / 2 := by
  rw [variance_eq_integral (measurable_coord 0).aemeasurable, mean_three]
  have := integral_coord (μ := threePoint a) (fun x => (x - 0) ^ 2) (by fun_prop) 0
  rw [this, integral_threePoint]; ring

theorem varOfSq_three (a : ℝ) : varOfSq (draws (threePoint a)) (coord 0) = a ^ 4 / 4 := by
  unfold varOfSq
  have hm : Measurable fun ω : ℕ → ℝ => (coord 0 ω - 0) ^ 2 := ((measurable_coord 0).sub_const 0).pow_const 2
  have h1 := integral_coord (μ := threePoint a) (fun x => (x - 0) ^ 2) (by fun_prop) 0
  rw [mean_three, variance_eq_integral hm.aemeasurable, h1]
  have h2 := integral_coord (μ := threePoint a) (fun x => ((x - 0) ^ 2 - ∫ x, (x - 0) ^ 2 ∂threePoint a) ^ 2) (by fun_prop) 0
  rw [h2, integral_threePoint, integral_threePoint]; ring

theorem mem_three (a : ℝ) (ha : 0 ≤ a) (i : ℕ) : ∀ᵐ ω ∂draws (threePoint a), coord i ω ∈ Set.Icc (-a) a := by
  have := threePoint_mem a ha
  rw [← map_coord (μ := threePoint a) i] at this
  exact ae_of_ae_map (measurable_coord i).aemeasurable this

theorem memLp_three (a : ℝ) (ha : 0 ≤ a) (p : ENNReal) : MemLp (coord 0) p (draws (threePoint a)) :=
  memLp_of_bounded (mem_three a ha 0) (measurable_coord 0).aestronglyMeasurable p

/-- three-point observations are sub-Gaussian -/
theorem subG_three (a : ℝ) (ha : 0 ≤ a) : HasSubgaussianMGF (coord 0) (a ^ 2).toNNReal (draws (threePoint a)) := by
  have h := hasSubgaussianMGF_of_mem_Icc_of_integral_eq_zero (measurable_coord 0).aemeasurable (mem_three a ha 0) (mean_three a)
  convert h using 1
  apply NNReal.coe_injective
  rw [Real.coe_toNNReal _ (by positivity)]
  push_cast
  rw [show a - -a = 2 * a by ring, norm_mul, Real.norm_of_nonneg ha]
  norm_num

end Verif
