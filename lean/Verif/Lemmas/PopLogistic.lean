import Verif.Spec.PopLogistic
import Verif.Lemmas.Logistic
import Mathlib.MeasureTheory.Integral.Bochner.Set
import Mathlib.MeasureTheory.Function.ConditionalExpectation.PullOut

/-!
# The expected logistic loss
-/

set_option linter.unusedSectionVars false

namespace Verif
open MeasureTheory Set Filter Topology

variable {Ω : Type} [MeasurableSpace Ω] {P : Measure Ω} [IsProbabilityMeasure P] {d : ℕ} {x : Ω → ℝ} {w : Ω → Fin d → ℝ}

/-- the expected logistic loss -/
noncomputable def popLoss (P : Measure Ω) (x : Ω → ℝ) (w : Ω → Fin d → ℝ) (θ : Fin d → ℝ) : ℝ := ∫ ω, logLoss (x ω) (∑ j, θ j * w ω j) ∂P

theorem measurable_logLoss : Measurable fun p : ℝ × ℝ => logLoss p.1 p.2 := by
  unfold logLoss
  fun_prop

theorem logit_integrable (hw : ∀ j, Integrable (fun ω => w ω j) P) (θ : Fin d → ℝ) : Integrable (fun ω => ∑ j, θ j * w ω j) P :=
  integrable_finsetSum _ fun j _ => (hw j).const_mul _

theorem logLoss_integrable (hx : AEMeasurable x P) (hb : ∀ᵐ ω ∂P, 0 ≤ x ω ∧ x ω ≤ 1) {η : Ω → ℝ} (hη : Integrable η P) :
    Integrable (fun ω => logLoss (x ω) (η ω)) P := by
  refine Integrable.mono' ((integrable_const (Real.log 2)).add hη.abs)
    (measurable_logLoss.comp_aemeasurable (hx.prodMk hη.aemeasurable)).aestronglyMeasurable ?_
  filter_upwards [hb] with ω ⟨h0, h1⟩
  have h2 := logLoss_lipschitz h0 h1 (η ω) 0
  rw [logLoss_zero, sub_zero] at h2
  have h3 := Real.log_nonneg (show (1 : ℝ) ≤ 2 by norm_num)
  have h4 := logLoss_nonneg h0 h1 (η ω)
  rw [Real.norm_of_nonneg h4]
  have := (abs_le.1 h2).2
  simp only [Pi.add_apply]
  linarith

theorem popLoss_lipschitz (hx : AEMeasurable x P) (hb : ∀ᵐ ω ∂P, 0 ≤ x ω ∧ x ω ≤ 1) (hw : ∀ j, Integrable (fun ω => w ω j) P) (θ t : Fin d → ℝ) :
    |popLoss P x w θ - popLoss P x w t| ≤ (∫ ω, ∑ j, |w ω j| ∂P) * ‖θ - t‖ := by
  unfold popLoss
  rw [← integral_sub (logLoss_integrable hx hb (logit_integrable hw θ)) (logLoss_integrable hx hb (logit_integrable hw t)), ← integral_mul_const]
  refine (abs_integral_le_integral_abs).trans (integral_mono_ae ?_ ?_ ?_)
  · exact ((logLoss_integrable hx hb (logit_integrable hw θ)).sub (logLoss_integrable hx hb (logit_integrable hw t))).abs
  · exact (integrable_finsetSum _ fun j _ => (hw j).abs).mul_const _
  · filter_upwards [hb] with ω ⟨h0, h1⟩
    have h2 := (logLoss_lipschitz h0 h1 _ _).trans (dot_lipschitz θ t (w ω))
    rw [mul_comm] at h2
    exact h2

theorem popLoss_continuous (hx : AEMeasurable x P) (hb : ∀ᵐ ω ∂P, 0 ≤ x ω ∧ x ω ≤ 1) (hw : ∀ j, Integrable (fun ω => w ω j) P) :
    Continuous (popLoss P x w) := by
  have h0 : 0 ≤ ∫ ω, ∑ j, |w ω j| ∂P := integral_nonneg fun ω => Finset.sum_nonneg fun j _ => abs_nonneg _
  refine LipschitzWith.continuous (K := ⟨_, h0⟩) (LipschitzWith.of_dist_le_mul fun θ t => ?_)
  rw [Real.dist_eq, dist_eq_norm]
  exact popLoss_lipschitz hx hb hw θ t

theorem popLoss_convex (hx : AEMeasurable x P) (hb : ∀ᵐ ω ∂P, 0 ≤ x ω ∧ x ω ≤ 1) (hw : ∀ j, Integrable (fun ω => w ω j) P) :
    ConvexOn ℝ univ (popLoss P x w) := by
  refine ⟨convex_univ, fun θ _ t _ a b ha hab hs => ?_⟩
  have i := fun θ => logLoss_integrable hx hb (logit_integrable hw θ)
  unfold popLoss
  rw [smul_eq_mul, smul_eq_mul, ← integral_const_mul, ← integral_const_mul, ← integral_add ((i θ).const_mul a) ((i t).const_mul b)]
  exact integral_mono (i _) (((i θ).const_mul a).add ((i t).const_mul b)) fun ω =>
    (logLoss_dot_convex (x ω) (w ω)).2 (mem_univ θ) (mem_univ t) ha hab hs

/-- a minimiser is the only one -/
theorem popLoss_unique (hx : AEMeasurable x P) (hb : ∀ᵐ ω ∂P, 0 ≤ x ω ∧ x ω ≤ 1) (hw : ∀ j, Integrable (fun ω => w ω j) P) (hnd : Nondegenerate P w)
    {θ : Fin d → ℝ} (hmin : ∀ t, popLoss P x w θ ≤ popLoss P x w t) (t : Fin d → ℝ) (ht : t ≠ θ) : popLoss P x w θ < popLoss P x w t := by
  by_contra hle
  push Not at hle
  refine ht ?_
  have i := fun θ => logLoss_integrable hx hb (logit_integrable hw θ)
  have hmid := hmin ((1 / 2 : ℝ) • θ + (1 / 2 : ℝ) • t)
  have hnn : 0 ≤ᵐ[P] fun ω => 1 / 2 * logLoss (x ω) (∑ j, θ j * w ω j) + 1 / 2 * logLoss (x ω) (∑ j, t j * w ω j) -
      logLoss (x ω) (∑ j, ((1 / 2 : ℝ) • θ + (1 / 2 : ℝ) • t) j * w ω j) := Eventually.of_forall fun ω => by
    have := (logLoss_dot_convex (x ω) (w ω)).2 (mem_univ θ) (mem_univ t) (by norm_num : (0 : ℝ) ≤ 1 / 2) (by norm_num : (0 : ℝ) ≤ 1 / 2) (by norm_num)
    simp only [smul_eq_mul] at this
    simp only [Pi.zero_apply]
    linarith
  have hint : Integrable (fun ω => 1 / 2 * logLoss (x ω) (∑ j, θ j * w ω j) + 1 / 2 * logLoss (x ω) (∑ j, t j * w ω j) -
      logLoss (x ω) (∑ j, ((1 / 2 : ℝ) • θ + (1 / 2 : ℝ) • t) j * w ω j)) P := (((i θ).const_mul _).add ((i t).const_mul _)).sub (i _)
  have hzero : ∫ ω, (1 / 2 * logLoss (x ω) (∑ j, θ j * w ω j) + 1 / 2 * logLoss (x ω) (∑ j, t j * w ω j) -
      logLoss (x ω) (∑ j, ((1 / 2 : ℝ) • θ + (1 / 2 : ℝ) • t) j * w ω j)) ∂P = 0 := by
    refine le_antisymm ?_ (integral_nonneg_of_ae hnn)
    have hsum : Integrable (fun ω => 1 / 2 * logLoss (x ω) (∑ j, θ j * w ω j) + 1 / 2 * logLoss (x ω) (∑ j, t j * w ω j)) P :=
      ((i θ).const_mul _).add ((i t).const_mul _)
    rw [integral_sub hsum (i _), integral_add ((i θ).const_mul _) ((i t).const_mul _), integral_const_mul,
      integral_const_mul]
    unfold popLoss at hle hmid
    linarith
  have h0 := (integral_eq_zero_iff_of_nonneg_ae hnn hint).1 hzero
  have heq : t - θ = 0 := by
    refine hnd _ ?_
    filter_upwards [h0] with ω hω
    by_contra hne
    have hne' : ∑ j, θ j * w ω j ≠ ∑ j, t j * w ω j := by
      intro e
      refine hne ?_
      simp only [Pi.sub_apply, sub_mul, Finset.sum_sub_distrib, e, sub_self]
    have := (logLoss_strictConvex (x ω)).2 (mem_univ _) (mem_univ _) hne' (by norm_num : (0 : ℝ) < 1 / 2) (by norm_num : (0 : ℝ) < 1 / 2) (by norm_num)
    simp only [Pi.zero_apply, dot_combine] at hω
    simp only [smul_eq_mul] at this
    linarith
  exact sub_eq_zero.1 heq

/-- classes that no hyperplane separates: the loss has a minimiser -/
theorem popLoss_exists (hx : AEMeasurable x P) (hbin : ∀ᵐ ω ∂P, x ω = 0 ∨ x ω = 1) (hw : ∀ j, Integrable (fun ω => w ω j) P)
    (hsep : ∀ v : Fin d → ℝ, v ≠ 0 → ¬ ∀ᵐ ω ∂P, (x ω = 1 → 0 ≤ ∑ j, v j * w ω j) ∧ (x ω = 0 → ∑ j, v j * w ω j ≤ 0)) :
    ∃ θ : Fin d → ℝ, ∀ t, popLoss P x w θ ≤ popLoss P x w t := by
  have hb : ∀ᵐ ω ∂P, 0 ≤ x ω ∧ x ω ≤ 1 := by
    filter_upwards [hbin] with ω h
    rcases h with h | h <;> rw [h] <;> norm_num
  refine exists_argmin (popLoss_convex hx hb hw) (popLoss_continuous hx hb hw) 0 fun v hv => ?_
  have hη := logit_integrable hw v
  have hg : Integrable (fun ω => max 0 ((1 - 2 * x ω) * ∑ j, v j * w ω j)) P := by
    refine Integrable.mono' hη.abs (by have := hη.aemeasurable; fun_prop) ?_
    filter_upwards [hbin] with ω h
    rw [Real.norm_of_nonneg (le_max_left _ _)]
    refine max_le (abs_nonneg _) ?_
    rcases h with h | h <;> rw [h]
    · rw [mul_zero, sub_zero, one_mul]; exact le_abs_self _
    · rw [show (1 - 2 * 1 : ℝ) = -1 by norm_num, neg_one_mul]; exact neg_le_abs _
  have hnn : 0 ≤ᵐ[P] fun ω => max 0 ((1 - 2 * x ω) * ∑ j, v j * w ω j) := Eventually.of_forall fun ω => le_max_left _ _
  have hpos : 0 < ∫ ω, max 0 ((1 - 2 * x ω) * ∑ j, v j * w ω j) ∂P := by
    refine lt_of_le_of_ne (integral_nonneg_of_ae hnn) fun h0 => hsep v hv ?_
    have := (integral_eq_zero_iff_of_nonneg_ae hnn hg).1 h0.symm
    filter_upwards [this] with ω hω
    have h1 : (1 - 2 * x ω) * ∑ j, v j * w ω j ≤ 0 := by
      have := le_max_right 0 ((1 - 2 * x ω) * ∑ j, v j * w ω j)
      simp only [Pi.zero_apply] at hω
      linarith
    refine ⟨fun e => ?_, fun e => ?_⟩ <;> rw [e] at h1 <;> linarith
  set c := ∫ ω, max 0 ((1 - 2 * x ω) * ∑ j, v j * w ω j) ∂P with hc
  have hF0 : 0 ≤ popLoss P x w 0 := integral_nonneg_of_ae (by
    filter_upwards [hb] with ω h
    exact logLoss_nonneg h.1 h.2 _)
  refine ⟨(popLoss P x w 0 + 1) / c, by positivity, ?_⟩
  have hs : 0 < (popLoss P x w 0 + 1) / c := by positivity
  have h2 : (popLoss P x w 0 + 1) / c * c ≤ popLoss P x w (0 + ((popLoss P x w 0 + 1) / c) • v) := by
    nth_rewrite 2 [hc]
    rw [← integral_const_mul]
    refine integral_mono_ae (hg.const_mul _) (logLoss_integrable hx hb (logit_integrable hw _)) ?_
    filter_upwards [hbin, hb] with ω h h01
    have e : ∑ j, (0 + ((popLoss P x w 0 + 1) / c) • v) j * w ω j = (popLoss P x w 0 + 1) / c * ∑ j, v j * w ω j := by
      rw [Finset.mul_sum]
      exact Finset.sum_congr rfl fun j _ => by simp only [Pi.add_apply, Pi.zero_apply, Pi.smul_apply, smul_eq_mul]; ring
    rw [e, mul_max_of_nonneg _ _ hs.le, mul_zero]
    refine max_le (logLoss_nonneg h01.1 h01.2 _) ?_
    rcases logLoss_ge (x ω) ((popLoss P x w 0 + 1) / c * ∑ j, v j * w ω j) with h3 | h3
    · refine le_trans (le_of_eq ?_) h3
      rcases h with h | h
      · rw [if_neg (by rw [h]; norm_num), h]; ring
      · rw [if_pos h, h]; ring
    · rcases h with h | h
      · exact absurd h h3.1
      · exact absurd h h3.2
  rw [div_mul_cancel₀ _ hpos.ne'] at h2
  linarith

/-! ## Conditional means -/

theorem integral_mul_condMean {T : Type} [MeasurableSpace T] {Y : Ω → ℝ} {Z : Ω → T} (hZ : Measurable Z) {f : T → ℝ}
    (h : P[Y | MeasurableSpace.comap Z inferInstance] =ᵐ[P] fun ω => f (Z ω)) (hY : Integrable Y P) {g : T → ℝ} (hg : Measurable g)
    (hi : Integrable (fun ω => g (Z ω) * Y ω) P) : ∫ ω, g (Z ω) * Y ω ∂P = ∫ ω, g (Z ω) * f (Z ω) ∂P ∧ Integrable (fun ω => g (Z ω) * f (Z ω)) P := by
  have hle : MeasurableSpace.comap Z inferInstance ≤ (inferInstance : MeasurableSpace Ω) := hZ.comap_le
  have hsm : StronglyMeasurable[MeasurableSpace.comap Z inferInstance] fun ω => g (Z ω) :=
    (hg.comp (comap_measurable Z)).stronglyMeasurable
  have h1 := condExp_mul_of_stronglyMeasurable_left hsm hi hY
  have h2 : P[(fun ω => g (Z ω)) * Y | MeasurableSpace.comap Z inferInstance] =ᵐ[P] fun ω => g (Z ω) * f (Z ω) := by
    filter_upwards [h1, h] with ω e1 e2
    rw [e1, Pi.mul_apply, e2]
  refine ⟨?_, (integrable_congr h2).1 integrable_condExp⟩
  rw [← integral_congr_ae h2, integral_condExp hle]
  rfl

end Verif
