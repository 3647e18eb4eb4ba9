import Verif.Model.ExampleScm
import Verif.Spec.ExampleScm
import Mathlib.Tactic.Linarith
import Mathlib.Tactic.Ring
import Mathlib.Tactic.FieldSimp

/-!
# Integrals over one unit
-/

namespace Verif
namespace Example
open MeasureTheory ProbabilityTheory

theorem integral_bit (q : ℝ) (h0 : 0 ≤ q) (h1 : q ≤ 1) (f : ℝ → ℝ) :
    ∫ u in (0 : ℝ)..1, f (bit q u) = q * f 1 + (1 - q) * f 0 := by
  have a : ∫ u in (0 : ℝ)..q, f (bit q u) = q * f 1 := by
    rw [intervalIntegral.integral_of_le h0, integral_Ioc_eq_integral_Ioo]
    rw [setIntegral_congr_fun (g := fun _ => f 1) measurableSet_Ioo]
    · rw [setIntegral_const]
      simp [h0]
    · intro u hu
      simp [bit, hu.2]
  have b : ∫ u in q..1, f (bit q u) = (1 - q) * f 0 := by
    rw [intervalIntegral.integral_of_le h1]
    rw [setIntegral_congr_fun (g := fun _ => f 0) measurableSet_Ioc]
    · rw [setIntegral_const]
      simp [h1]
    · intro u hu
      simp [bit, not_lt.mpr hu.1.le]
  have ia : IntervalIntegrable (fun u => f (bit q u)) volume 0 q := by
    rw [intervalIntegrable_iff_integrableOn_Ioo_of_le h0]
    refine (integrableOn_const (C := f 1) (by simp)).congr_fun ?_ measurableSet_Ioo
    intro u hu
    simp [bit, hu.2]
  have ib : IntervalIntegrable (fun u => f (bit q u)) volume q 1 := by
    rw [intervalIntegrable_iff_integrableOn_Ioo_of_le h1]
    refine (integrableOn_const (C := f 0) (by simp)).congr_fun ?_ measurableSet_Ioo
    intro u hu
    simp [bit, not_lt.mpr hu.1.le]
  rw [← intervalIntegral.integral_add_adjacent_intervals ia ib, a, b]

theorem gauss_quad (a b c : ℝ) : ∫ e, (a + b * e + c * e ^ 2) ∂gaussianReal 0 1 = a + c := by
  have h2 : MemLp (id : ℝ → ℝ) 2 (gaussianReal 0 1) := memLp_id_gaussianReal 2
  have i1 : Integrable (fun e : ℝ => e) (gaussianReal 0 1) := h2.integrable (by norm_num)
  have i2 : Integrable (fun e : ℝ => e ^ 2) (gaussianReal 0 1) := h2.integrable_sq
  have m1 : ∫ e, e ∂gaussianReal 0 1 = 0 := integral_id_gaussianReal
  have m2 : ∫ e, e ^ 2 ∂gaussianReal 0 1 = 1 := by
    have hv : Var[fun e : ℝ => e; gaussianReal 0 1] = ((1 : NNReal) : ℝ) := variance_fun_id_gaussianReal
    rw [variance_of_integral_eq_zero aemeasurable_id' m1] at hv
    simpa using hv
  have i3 : Integrable (fun e : ℝ => a + b * e) (gaussianReal 0 1) := (integrable_const a).add (i1.const_mul b)
  rw [integral_add i3 (i2.const_mul c),
    integral_add (integrable_const a) (i1.const_mul b), integral_const_mul, integral_const_mul, m1, m2]
  simp

theorem gauss_const (a : ℝ) : ∫ _e, a ∂gaussianReal 0 1 = a := by simp

theorem gauss_shift (a : ℝ) : ∫ e, (a + e) ∂gaussianReal 0 1 = a := by
  have := gauss_quad a 1 0
  simpa using this

theorem gauss_sq (a : ℝ) : ∫ e, (a + e) ^ 2 ∂gaussianReal 0 1 = a ^ 2 + 1 := by
  rw [← gauss_quad (a ^ 2) (2 * a) 1]
  congr 1
  funext e
  ring

theorem g_eq (x : ℝ) : g x = logistic x := rfl

theorem logistic_zero : logistic 0 = 1 / 2 := by unfold logistic; simp; norm_num

theorem logistic_mem (x : ℝ) : 0 < logistic x ∧ logistic x < 1 := by
  unfold logistic
  have := Real.exp_pos (-x)
  constructor
  · positivity
  · rw [div_lt_one (by linarith)]; linarith

end Example
end Verif
