import Verif.Lemmas.AipwLimit2

/-!
# The mean of the limiting AIPW score
-/

set_option linter.unusedSectionVars false
set_option linter.unusedSimpArgs false

namespace Verif
open MeasureTheory ProbabilityTheory Filter Topology Arm Param

variable {Ω : Type} [MeasurableSpace Ω] {P : Measure Ω} [IsProbabilityMeasure P] {k : ℕ} {κ : ℝ} {V : Ω → (Fin k → ℝ) × ℝ × ℝ}

theorem regressor_dot' (b : Fin (k + 1) → ℝ) (p : (Fin k → ℝ) × ℝ × ℝ) : ∑ j, b j * regressor p j = b 0 * p.2.1 + ∑ j : Fin k, b j.succ * p.1 j := by
  rw [Fin.sum_univ_succ]
  simp [regressor]

theorem withOne_dot (θ : Fin (k + 1) → ℝ) (p : (Fin k → ℝ) × ℝ × ℝ) : ∑ j, θ j * withOne p j = θ 0 + ∑ j : Fin k, θ j.succ * p.1 j := by
  rw [Fin.sum_univ_succ]
  simp [withOne]

/-- residuals are orthogonal to functions of exposure and covariates -/
theorem residual_orthogonal (hV : Measurable V) {m : ℝ → (Fin k → ℝ) → ℝ} (hm : ResponseMean P V m) (hy : Integrable (fun ω => (V ω).2.2) P)
    {g : ℝ × (Fin k → ℝ) → ℝ} (hg : Measurable g) (hi : Integrable (fun ω => g ((V ω).2.1, (V ω).1) * (V ω).2.2) P) :
    ∫ ω, g ((V ω).2.1, (V ω).1) * (V ω).2.2 ∂P = ∫ ω, g ((V ω).2.1, (V ω).1) * m (V ω).2.1 (V ω).1 ∂P ∧
      Integrable (fun ω => g ((V ω).2.1, (V ω).1) * m (V ω).2.1 (V ω).1) P :=
  integral_mul_condMean (P := P) (Y := fun ω => (V ω).2.2) (Z := fun ω => ((V ω).2.1, (V ω).1)) (f := fun q => m q.1 q.2)
    (hV.snd.fst.prodMk hV.fst) hm hy hg hi

theorem linear_leastSquares (hV : Measurable V) (hbin : ∀ᵐ ω ∂P, (V ω).2.1 = 0 ∨ (V ω).2.1 = 1) (hz : ∀ j, MemLp (fun ω => (V ω).1 j) 2 P)
    (hy : MemLp (fun ω => (V ω).2.2) 2 P) {b : Fin (k + 1) → ℝ} (hm : ResponseMean P V fun x z => b 0 * x + ∑ j : Fin k, b j.succ * z j) : LeastSquares P V b := by
  intro j
  have hr := regressor_memLp hV.aemeasurable hbin hz
  have h1 : Integrable (fun ω => regressor (V ω) j * (V ω).2.2) P := (hr j).integrable_mul hy
  have hg : Measurable fun q : ℝ × (Fin k → ℝ) => regressor (q.2, q.1, (0 : ℝ)) j :=
    (LinReg.measurable_regressor j).comp (by fun_prop)
  have h2 := residual_orthogonal hV hm (hy.integrable (by norm_num)) (g := fun q => regressor (q.2, q.1, (0 : ℝ)) j) hg h1
  have e : ∀ ω, regressor ((V ω).1, (V ω).2.1, (0 : ℝ)) j = regressor (V ω) j := fun ω => rfl
  simp only [e] at h2
  have h3 : ∀ ω, regressor (V ω) j * ((V ω).2.2 - ∑ l, b l * regressor (V ω) l) =
      regressor (V ω) j * (V ω).2.2 - regressor (V ω) j * (b 0 * (V ω).2.1 + ∑ l : Fin k, b l.succ * (V ω).1 l) := fun ω => by
    rw [regressor_dot', mul_sub]
  simp only [h3]
  rw [integral_sub h1 h2.2, h2.1, sub_self]

theorem weight_integrable (hV : Measurable V) (hbin : ∀ᵐ ω ∂P, (V ω).2.1 = 0 ∨ (V ω).2.1 = 1) (h0 : 0 < κ) (h1 : κ ≤ 1 / 2) (θ : Fin (k + 1) → ℝ) {f : Ω → ℝ}
    (hf : Integrable f P) : Integrable (fun ω => ((V ω).2.1 / clippedPropensity κ θ (V ω) - (1 - (V ω).2.1) / (1 - clippedPropensity κ θ (V ω))) * f ω) P := by
  refine hf.bdd_mul (c := 1 / κ) ((measurable_weight κ θ).comp hV).aestronglyMeasurable ?_
  filter_upwards [hbin] with ω h
  exact weight_le h0 h1 θ _ h

/-- the mean of the score in terms of the response means -/
theorem aipwPoint_mean (hV : Measurable V) (hbin : ∀ᵐ ω ∂P, (V ω).2.1 = 0 ∨ (V ω).2.1 = 1) (hz : ∀ j, Integrable (fun ω => (V ω).1 j) P)
    (hy : Integrable (fun ω => (V ω).2.2) P) (h0 : 0 < κ) (h1 : κ ≤ 1 / 2) (b θ : Fin (k + 1) → ℝ) {m : ℝ → (Fin k → ℝ) → ℝ} (hm : ResponseMean P V m) :
    ∫ ω, aipwPoint κ b θ (V ω) ∂P = b 0 + ∫ ω, ((V ω).2.1 / clippedPropensity κ θ (V ω) - (1 - (V ω).2.1) / (1 - clippedPropensity κ θ (V ω))) *
        (m (V ω).2.1 (V ω).1 - ∑ j, b j * regressor (V ω) j) ∂P ∧
      Integrable (fun ω => ((V ω).2.1 / clippedPropensity κ θ (V ω) - (1 - (V ω).2.1) / (1 - clippedPropensity κ θ (V ω))) *
        (m (V ω).2.1 (V ω).1 - ∑ j, b j * regressor (V ω) j)) P := by
  set h : Ω → ℝ := fun ω => (V ω).2.1 / clippedPropensity κ θ (V ω) - (1 - (V ω).2.1) / (1 - clippedPropensity κ θ (V ω)) with hh
  have hz' : ∀ j, MemLp (fun ω => (V ω).1 j) 1 P := fun j => memLp_one_iff_integrable.2 (hz j)
  have hD : Integrable (fun ω => ∑ j, b j * regressor (V ω) j) P :=
    integrable_finsetSum _ fun j _ => (memLp_one_iff_integrable.1 (regressor_memLp hV.aemeasurable hbin hz' j)).const_mul _
  have i1 : Integrable (fun ω => h ω * (V ω).2.2) P := weight_integrable hV hbin h0 h1 θ hy
  have i2 : Integrable (fun ω => h ω * ∑ j, b j * regressor (V ω) j) P := weight_integrable hV hbin h0 h1 θ hD
  have hg : Measurable fun q : ℝ × (Fin k → ℝ) => q.1 / clippedPropensity κ θ (q.2, q.1, (0 : ℝ)) - (1 - q.1) / (1 - clippedPropensity κ θ (q.2, q.1, (0 : ℝ))) :=
    (measurable_weight κ θ).comp (f := fun q : ℝ × (Fin k → ℝ) => (q.2, q.1, (0 : ℝ))) (by fun_prop)
  have h2 := residual_orthogonal hV hm hy hg i1
  have e : ∀ ω, ((V ω).2.1 / clippedPropensity κ θ ((V ω).1, (V ω).2.1, (0 : ℝ)) - (1 - (V ω).2.1) / (1 - clippedPropensity κ θ ((V ω).1, (V ω).2.1, (0 : ℝ)))) = h ω := fun ω => rfl
  simp only [e] at h2
  have i3 : Integrable (fun ω => h ω * (m (V ω).2.1 (V ω).1 - ∑ j, b j * regressor (V ω) j)) P := by
    simp only [mul_sub]
    exact h2.2.sub i2
  refine ⟨?_, i3⟩
  have e1 : ∀ ω, aipwPoint κ b θ (V ω) = b 0 + (h ω * (V ω).2.2 - h ω * ∑ j, b j * regressor (V ω) j) := fun ω => by
    unfold aipwPoint
    rw [← mul_sub, mul_comm (h ω)]
  have i4 : Integrable (fun ω => h ω * (V ω).2.2 - h ω * ∑ j, b j * regressor (V ω) j) P := i1.sub i2
  simp only [e1]
  rw [integral_add (integrable_const _) i4, integral_sub i1 i2, h2.1, ← integral_sub h2.2 i2]
  simp [mul_sub, hh]

/-- correct response model -/
theorem aipwPoint_mean_linear (hV : Measurable V) (hbin : ∀ᵐ ω ∂P, (V ω).2.1 = 0 ∨ (V ω).2.1 = 1) (hz : ∀ j, Integrable (fun ω => (V ω).1 j) P)
    (hy : Integrable (fun ω => (V ω).2.2) P) (h0 : 0 < κ) (h1 : κ ≤ 1 / 2) (b θ : Fin (k + 1) → ℝ)
    (hm : ResponseMean P V fun x z => b 0 * x + ∑ j : Fin k, b j.succ * z j) : ∫ ω, aipwPoint κ b θ (V ω) ∂P = b 0 := by
  rw [(aipwPoint_mean hV hbin hz hy h0 h1 b θ hm).1]
  simp only [regressor_dot', sub_self, mul_zero, integral_zero, add_zero]

/-- correct propensity model -/
theorem aipwPoint_mean_logistic (hV : Measurable V) (hbin : ∀ᵐ ω ∂P, (V ω).2.1 = 0 ∨ (V ω).2.1 = 1) (hz : ∀ j, Integrable (fun ω => (V ω).1 j) P)
    (hy : Integrable (fun ω => (V ω).2.2) P) (h0 : 0 < κ) (h1 : κ ≤ 1 / 2) (b θ : Fin (k + 1) → ℝ) {m : ℝ → (Fin k → ℝ) → ℝ} (hm : ResponseMean P V m)
    (hmm : ∀ x, Measurable (m x)) (hm1 : Integrable (fun ω => m 1 (V ω).1) P) (hm0 : Integrable (fun ω => m 0 (V ω).1) P)
    (he : PropensityIs P V fun z => Real.sigmoid (θ 0 + ∑ j, θ j.succ * z j))
    (hov : ∀ᵐ ω ∂P, κ ≤ Real.sigmoid (θ 0 + ∑ j, θ j.succ * (V ω).1 j) ∧ Real.sigmoid (θ 0 + ∑ j, θ j.succ * (V ω).1 j) ≤ 1 - κ) :
    ∫ ω, aipwPoint κ b θ (V ω) ∂P = ∫ ω, (m 1 (V ω).1 - m 0 (V ω).1) ∂P := by
  obtain ⟨e1, i1⟩ := aipwPoint_mean hV hbin hz hy h0 h1 b θ hm
  rw [e1]
  -- the clipped propensity as a function of the covariates
  let c : (Fin k → ℝ) → ℝ := fun z => clippedPropensity κ θ (z, (0 : ℝ), (0 : ℝ))
  have hc : ∀ p : (Fin k → ℝ) × ℝ × ℝ, clippedPropensity κ θ p = c p.1 := fun p => by
    simp only [c, clippedPropensity]
    rw [withOne_dot, withOne_dot]
  have hcm : Measurable c := (measurable_clipped κ θ).comp (f := fun z : Fin k → ℝ => (z, (0 : ℝ), (0 : ℝ))) (by fun_prop)
  have hcb : ∀ z, κ ≤ c z ∧ c z ≤ 1 - κ := fun z => clipped_mem h1 θ _
  have hce : ∀ᵐ ω ∂P, Real.sigmoid (θ 0 + ∑ j, θ j.succ * (V ω).1 j) = c (V ω).1 := by
    filter_upwards [hov] with ω ho
    simp only [c, clippedPropensity]
    rw [withOne_dot, max_eq_left ho.1, min_eq_left ho.2]
  have he' : P[fun ω => (V ω).2.1 | MeasurableSpace.comap (fun ω => (V ω).1) inferInstance] =ᵐ[P] fun ω => c (V ω).1 := he.trans hce
  let r1 : (Fin k → ℝ) → ℝ := fun z => m 1 z - (b 0 + ∑ j : Fin k, b j.succ * z j)
  let r0 : (Fin k → ℝ) → ℝ := fun z => m 0 z - ∑ j : Fin k, b j.succ * z j
  have hβm : Measurable fun z : Fin k → ℝ => ∑ j : Fin k, b j.succ * z j := Finset.measurable_fun_sum _ fun j _ => (measurable_pi_apply j).const_mul _
  have hr1m : Measurable r1 := (hmm 1).sub (measurable_const.add hβm)
  have hr0m : Measurable r0 := (hmm 0).sub hβm
  have hβi : Integrable (fun ω => ∑ j : Fin k, b j.succ * (V ω).1 j) P := integrable_finsetSum _ fun j _ => (hz j).const_mul _
  have hr1i : Integrable (fun ω => r1 (V ω).1) P := hm1.sub ((integrable_const _).add hβi)
  have hr0i : Integrable (fun ω => r0 (V ω).1) P := hm0.sub hβi
  have hX : Integrable (fun ω => (V ω).2.1) P := memLp_one_iff_integrable.1 (binary_memLp hV.aemeasurable hbin 1)
  have hxb : ∀ᵐ ω ∂P, ‖(V ω).2.1‖ ≤ 1 := by
    filter_upwards [hbin] with ω h
    rcases h with h | h <;> rw [h] <;> simp
  have hxm : AEStronglyMeasurable (fun ω => (V ω).2.1) P := hV.snd.fst.aestronglyMeasurable
  have hcV : Measurable fun ω => c (V ω).1 := hcm.comp hV.fst
  -- treated units
  have a1 : Integrable (fun ω => r1 (V ω).1 / c (V ω).1) P := by
    simp only [div_eq_inv_mul]
    refine hr1i.bdd_mul (c := κ⁻¹) hcV.inv.aestronglyMeasurable (Eventually.of_forall fun ω => ?_)
    rw [norm_inv, Real.norm_of_nonneg (h0.le.trans (hcb _).1)]
    exact inv_anti₀ h0 (hcb _).1
  have a2 : Integrable (fun ω => r1 (V ω).1 / c (V ω).1 * (V ω).2.1) P := by
    simp only [mul_comm _ (V _).2.1]
    exact a1.bdd_mul (c := 1) hxm hxb
  have a3 := integral_mul_condMean (P := P) (Y := fun ω => (V ω).2.1) (Z := fun ω => (V ω).1) (f := c) hV.fst he' hX (g := fun z => r1 z / c z) (hr1m.div hcm) a2
  have a4 : ∀ ω, r1 (V ω).1 / c (V ω).1 * c (V ω).1 = r1 (V ω).1 := fun ω => div_mul_cancel₀ _ (by have := (hcb (V ω).1).1; linarith)
  simp only [a4] at a3
  -- other units
  have b1 : Integrable (fun ω => r0 (V ω).1 / (1 - c (V ω).1)) P := by
    simp only [div_eq_inv_mul]
    refine hr0i.bdd_mul (c := κ⁻¹) (measurable_const.sub hcV).inv.aestronglyMeasurable (Eventually.of_forall fun ω => ?_)
    have := (hcb (V ω).1).2
    rw [norm_inv, Real.norm_of_nonneg (by linarith)]
    exact inv_anti₀ h0 (by linarith)
  have b2 : Integrable (fun ω => r0 (V ω).1 / (1 - c (V ω).1) * (V ω).2.1) P := by
    simp only [mul_comm _ (V _).2.1]
    exact b1.bdd_mul (c := 1) hxm hxb
  have b3 := integral_mul_condMean (P := P) (Y := fun ω => (V ω).2.1) (Z := fun ω => (V ω).1) (f := c) hV.fst he' hX (g := fun z => r0 z / (1 - c z))
    (hr0m.div (measurable_const.sub hcm)) b2
  have b4 : ∫ ω, (r0 (V ω).1 / (1 - c (V ω).1) - r0 (V ω).1 / (1 - c (V ω).1) * (V ω).2.1) ∂P = ∫ ω, r0 (V ω).1 ∂P := by
    rw [integral_sub b1 b2, b3.1, ← integral_sub b1 b3.2]
    refine integral_congr_ae (Eventually.of_forall fun ω => ?_)
    have : 1 - c (V ω).1 ≠ 0 := by have := (hcb (V ω).1).2; linarith
    simp only
    field_simp
  have key : ∫ ω, ((V ω).2.1 / clippedPropensity κ θ (V ω) - (1 - (V ω).2.1) / (1 - clippedPropensity κ θ (V ω))) *
        (m (V ω).2.1 (V ω).1 - ∑ j, b j * regressor (V ω) j) ∂P =
      ∫ ω, (r1 (V ω).1 / c (V ω).1 * (V ω).2.1 - (r0 (V ω).1 / (1 - c (V ω).1) - r0 (V ω).1 / (1 - c (V ω).1) * (V ω).2.1)) ∂P := by
    refine integral_congr_ae ?_
    filter_upwards [hbin] with ω h
    rw [regressor_dot', hc]
    simp only [r1, r0]
    rcases h with h | h <;> rw [h] <;> ring
  have b5 : Integrable (fun ω => r0 (V ω).1 / (1 - c (V ω).1) - r0 (V ω).1 / (1 - c (V ω).1) * (V ω).2.1) P := b1.sub b2
  rw [key, integral_sub a2 b5, b4, a3.1]
  have c1 : ∫ ω, r1 (V ω).1 ∂P - ∫ ω, r0 (V ω).1 ∂P = ∫ ω, (r1 (V ω).1 - r0 (V ω).1) ∂P := (integral_sub hr1i hr0i).symm
  rw [c1]
  have c2 : ∀ ω, r1 (V ω).1 - r0 (V ω).1 = (m 1 (V ω).1 - m 0 (V ω).1) - b 0 := fun ω => by simp only [r1, r0]; ring
  simp only [c2]
  have i5 : Integrable (fun ω => m 1 (V ω).1 - m 0 (V ω).1) P := hm1.sub hm0
  rw [integral_sub i5 (integrable_const _)]
  simp

end Verif
