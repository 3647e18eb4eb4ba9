import Verif.Spec.Sklearn
import Verif.Lemmas.MEstimation
import Mathlib.Analysis.SpecialFunctions.Log.Deriv
import Mathlib.Analysis.Calculus.MeanValue

/-!
# The logistic loss
-/

namespace Verif
open Set Real

/-- the logistic loss of a label and a logit -/
noncomputable def logLoss (x η : ℝ) : ℝ := log (1 + exp η) - x * η

theorem crossEntropy_sigmoid (x η : ℝ) : crossEntropy x (sigmoid η) = logLoss x η := by
  have h1 : log (1 - sigmoid η) = -log (1 + exp η) := by
    rw [← sigmoid_neg, sigmoid_def, neg_neg, log_inv]
  have h2 : log (sigmoid η) = η - log (1 + exp η) := by
    have h3 : sigmoid η = exp η * (1 - sigmoid η) := by
      have := sigmoid_mul_rexp_neg (-η)
      rw [neg_neg, sigmoid_neg] at this
      linarith
    have h4 : 0 < 1 - sigmoid η := sub_pos.2 (sigmoid_lt_one η)
    rw [h3, log_mul (exp_pos η).ne' h4.ne', log_exp, h1]
    ring
  unfold crossEntropy logLoss
  rw [h1, h2]
  ring

theorem hasDerivAt_logLoss (x η : ℝ) : HasDerivAt (logLoss x) (sigmoid η - x) η := by
  have h1 : HasDerivAt (fun η => log (1 + exp η)) (exp η / (1 + exp η)) η :=
    ((hasDerivAt_exp η).const_add 1).log (by positivity)
  have h2 : exp η / (1 + exp η) = sigmoid η := by
    rw [sigmoid_def, exp_neg]
    have := exp_pos η
    field_simp
    ring
  rw [h2] at h1
  have h3 : HasDerivAt (fun η => x * η) x η := by simpa using (hasDerivAt_id η).const_mul x
  exact h1.sub h3

theorem deriv_logLoss (x : ℝ) : deriv (logLoss x) = fun η => sigmoid η - x := funext fun η => (hasDerivAt_logLoss x η).deriv

theorem differentiable_logLoss (x : ℝ) : Differentiable ℝ (logLoss x) := fun η => (hasDerivAt_logLoss x η).differentiableAt

theorem logLoss_convex (x : ℝ) : ConvexOn ℝ univ (logLoss x) := by
  refine Monotone.convexOn_univ_of_deriv (differentiable_logLoss x) ?_
  rw [deriv_logLoss]
  exact fun a b h => sub_le_sub_right (sigmoid_monotone h) x

theorem logLoss_strictConvex (x : ℝ) : StrictConvexOn ℝ univ (logLoss x) := by
  refine StrictMono.strictConvexOn_univ_of_deriv (differentiable_logLoss x).continuous ?_
  rw [deriv_logLoss]
  exact fun a b h => sub_lt_sub_right (sigmoid_strictMono h) x

theorem logLoss_lipschitz {x : ℝ} (h0 : 0 ≤ x) (h1 : x ≤ 1) (a b : ℝ) : |logLoss x a - logLoss x b| ≤ |a - b| := by
  have := (convex_univ (𝕜 := ℝ) (E := ℝ)).norm_image_sub_le_of_norm_deriv_le (f := logLoss x) (C := 1) (x := b) (y := a)
    (fun η _ => (differentiable_logLoss x η)) (fun η _ => by
      rw [deriv_logLoss, norm_eq_abs, abs_le]
      have := sigmoid_nonneg η
      have := sigmoid_le_one η
      constructor <;> linarith) (mem_univ _) (mem_univ _)
  simpa [norm_eq_abs] using this

theorem sigmoid_lipschitz (a b : ℝ) : |sigmoid a - sigmoid b| ≤ |a - b| := by
  have := (convex_univ (𝕜 := ℝ) (E := ℝ)).norm_image_sub_le_of_norm_deriv_le (f := sigmoid) (C := 1) (x := b) (y := a)
    (fun η _ => differentiableAt_sigmoid) (fun η _ => by
      rw [deriv_sigmoid, norm_eq_abs, abs_le]
      have h1 := sigmoid_nonneg η
      have h2 := sigmoid_le_one η
      have := mul_nonneg h1 (sub_nonneg.2 h2)
      constructor
      · linarith
      · nlinarith) (mem_univ _) (mem_univ _)
  simpa [norm_eq_abs] using this

theorem logLoss_zero (x : ℝ) : logLoss x 0 = log 2 := by
  unfold logLoss
  rw [exp_zero]
  norm_num

theorem logLoss_nonneg {x : ℝ} (h0 : 0 ≤ x) (h1 : x ≤ 1) (η : ℝ) : 0 ≤ logLoss x η := by
  rw [← crossEntropy_sigmoid]
  unfold crossEntropy
  have h2 := log_nonpos (sigmoid_nonneg η) (sigmoid_le_one η)
  have h3 := log_nonpos (sub_nonneg.2 (sigmoid_le_one η)) (by linarith [sigmoid_nonneg η])
  nlinarith [mul_nonneg h0 (neg_nonneg.2 h2), mul_nonneg (sub_nonneg.2 h1) (neg_nonneg.2 h3)]

theorem logLoss_ge (x η : ℝ) : (if x = 1 then -η else η) ≤ logLoss x η ∨ (x ≠ 0 ∧ x ≠ 1) := by
  have h1 : η ≤ log (1 + exp η) := by
    rw [le_log_iff_exp_le (by positivity)]
    linarith
  have h2 : 0 ≤ log (1 + exp η) := log_nonneg (by linarith [exp_pos η])
  unfold logLoss
  by_cases hx1 : x = 1
  · left; rw [if_pos hx1, hx1]; linarith
  by_cases hx0 : x = 0
  · left; rw [if_neg hx1, hx0]; linarith
  · exact Or.inr ⟨hx0, hx1⟩

/-- the expected loss for labels of probability `sigmoid a` is smallest for the logit `a` -/
theorem logLoss_min {a b : ℝ} (h : b ≠ a) : logLoss (sigmoid a) a < logLoss (sigmoid a) b := by
  have hp := sigmoid_pos a
  have hp1 := sigmoid_lt_one a
  have hq := sigmoid_pos b
  have hq1 := sigmoid_lt_one b
  have hne : sigmoid b ≠ sigmoid a := fun e => h (sigmoid_injective e)
  rw [← crossEntropy_sigmoid, ← crossEntropy_sigmoid]
  unfold crossEntropy
  generalize sigmoid a = p at *
  generalize sigmoid b = q at *
  have h1 : log (q / p) < q / p - 1 := log_lt_sub_one_of_pos (div_pos hq hp) (by
    intro e; rw [div_eq_one_iff_eq hp.ne'] at e; exact hne e)
  have h2 : log ((1 - q) / (1 - p)) ≤ (1 - q) / (1 - p) - 1 := log_le_sub_one_of_pos (div_pos (by linarith) (by linarith))
  rw [log_div hq.ne' hp.ne'] at h1
  rw [log_div (by linarith) (by linarith)] at h2
  have h3 : p * (log q - log p) < q - p := by
    have := mul_lt_mul_of_pos_left h1 hp
    rwa [mul_sub p (q / p), mul_div_cancel₀ _ hp.ne', mul_one] at this
  have h4 : (1 - p) * (log (1 - q) - log (1 - p)) ≤ p - q := by
    have h5 : 0 < 1 - p := by linarith
    have := mul_le_mul_of_nonneg_left h2 h5.le
    rw [mul_sub (1 - p) ((1 - q) / (1 - p)), mul_div_cancel₀ _ h5.ne', mul_one] at this
    linarith
  linarith

/-! ## Logits -/

variable {d : ℕ}

theorem dot_combine (θ t w : Fin d → ℝ) (a b : ℝ) : ∑ j, (a • θ + b • t) j * w j = a * ∑ j, θ j * w j + b * ∑ j, t j * w j := by
  rw [Finset.mul_sum, Finset.mul_sum, ← Finset.sum_add_distrib]
  exact Finset.sum_congr rfl fun j _ => by simp only [Pi.add_apply, Pi.smul_apply, smul_eq_mul]; ring

theorem dot_lipschitz (θ t w : Fin d → ℝ) : |∑ j, θ j * w j - ∑ j, t j * w j| ≤ ‖θ - t‖ * ∑ j, |w j| := by
  rw [← Finset.sum_sub_distrib, Finset.mul_sum]
  refine (Finset.abs_sum_le_sum_abs _ _).trans (Finset.sum_le_sum fun j _ => ?_)
  rw [← sub_mul, abs_mul]
  exact mul_le_mul_of_nonneg_right (norm_le_pi_norm (θ - t) j) (abs_nonneg _)

theorem logLoss_dot_convex (x : ℝ) (w : Fin d → ℝ) : ConvexOn ℝ univ fun θ : Fin d → ℝ => logLoss x (∑ j, θ j * w j) := by
  refine ⟨convex_univ, fun θ _ t _ a b ha hb hab => ?_⟩
  simp only
  rw [dot_combine]
  exact (logLoss_convex x).2 (mem_univ _) (mem_univ _) ha hb hab

end Verif
