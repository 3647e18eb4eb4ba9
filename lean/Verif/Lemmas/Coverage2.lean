import Verif.Lemmas.Coverage

/-!
# Limits of coverage probabilities
-/

set_option linter.unusedSectionVars false

namespace Verif
open MeasureTheory ProbabilityTheory Filter Topology

/-- without atoms the distribution function takes the value `p` at the `p`-quantile -/
theorem cdf_quantile (μ : Measure ℝ) [IsProbabilityMeasure μ] (hna : ∀ x, μ {x} = 0) {p : ℝ} (h0 : 0 < p) (h1 : p < 1) :
    cdf μ (quantile μ p) = p := by
  set q := quantile μ p with hq
  refine le_antisymm ?_ ?_
  · have hl : Function.leftLim (cdf μ) q = cdf μ q := by
      have h := (cdf μ).measure_singleton q
      rw [measure_cdf, hna, eq_comm, ENNReal.ofReal_eq_zero] at h
      exact le_antisymm ((monotone_cdf μ).leftLim_le le_rfl) (by linarith)
    rw [← hl]
    refine le_of_tendsto ((monotone_cdf μ).tendsto_leftLim q) ?_
    filter_upwards [self_mem_nhdsWithin] with x hx
    by_contra hlt
    have := quantile_le μ h0 (not_le.mp hlt).le
    exact absurd (Set.mem_Iio.mp hx) (not_lt.mpr this)
  · by_contra hlt
    exact lt_irrefl q (lt_quantile μ h1 (not_le.mp hlt))

/-- a normal law with positive variance has no atoms -/
theorem gaussian_singleton {m : ℝ} {v : NNReal} (hv : v ≠ 0) (x : ℝ) : gaussianReal m v {x} = 0 := by
  have := nullSingletonClass_gaussianReal (μ := m) (v := v) hv
  exact measure_singleton x

/-- probability of the central interval between two quantiles -/
theorem gaussian_central {p q : ℝ} (hp : 0 < p) (hq : q < 1) (hpq : p ≤ q) :
    gaussianReal 0 1 (Set.Icc (-quantile (gaussianReal 0 1) q) (-quantile (gaussianReal 0 1) p)) = ENNReal.ofReal (q - p) := by
  set γ := gaussianReal 0 1 with hγ
  have hm : γ.map (fun x => -x) = γ := by
    have := gaussianReal_map_neg (μ := 0) (v := 1)
    rwa [neg_zero] at this
  have hna : ∀ x, γ {x} = 0 := gaussian_singleton one_ne_zero
  have hnull : NullSingletonClass γ := nullSingletonClass_gaussianReal one_ne_zero
  have h1 : γ (Set.Icc (-quantile γ q) (-quantile γ p)) = γ (Set.Icc (quantile γ p) (quantile γ q)) := by
    generalize quantile γ q = a
    generalize quantile γ p = b
    conv_lhs => rw [← hm]
    rw [Measure.map_apply measurable_neg measurableSet_Icc]
    congr 1
    ext x
    simp
  rw [h1, measure_congr Ioc_ae_eq_Icc.symm]
  have h2 := (cdf γ).measure_Ioc (quantile γ p) (quantile γ q)
  rw [measure_cdf, cdf_quantile γ hna hp (by linarith), cdf_quantile γ hna (by linarith) hq] at h2
  exact h2

/-- a centred normal law is a rescaled standard one -/
theorem gaussian_scale {w : ℝ} (hw : 0 < w) (a b : ℝ) :
    gaussianReal 0 w.toNNReal (Set.Icc (a * √w) (b * √w)) = gaussianReal 0 1 (Set.Icc a b) := by
  have hs : 0 < √w := Real.sqrt_pos.mpr hw
  have h := gaussianReal_map_const_mul (μ := 0) (v := 1) (√w)
  have h1 : NNReal.mk (√w ^ 2) (sq_nonneg _) * 1 = w.toNNReal := by
    rw [mul_one]
    apply NNReal.coe_injective
    rw [Real.coe_toNNReal _ hw.le]
    exact Real.sq_sqrt hw.le
  rw [mul_zero, h1] at h
  rw [← h, Measure.map_apply (by fun_prop) measurableSet_Icc]
  congr 1
  ext x
  simp only [Set.mem_preimage, Set.mem_Icc]
  constructor
  · rintro ⟨p1, p2⟩
    exact ⟨by nlinarith, by nlinarith⟩
  · rintro ⟨p1, p2⟩
    exact ⟨by nlinarith, by nlinarith⟩

section
variable {Ω : Type} [MeasurableSpace Ω] {P : Measure Ω} [IsProbabilityMeasure P]

/-- if `T n` tends to a normal variable in distribution and the bounds converge, so does the probability of being between -/
theorem between_limit {T : ℕ → Ω → ℝ} {v : NNReal} (hv : v ≠ 0)
    (hT : TendstoInDistribution T atTop (id : ℝ → ℝ) (fun _ => P) (gaussianReal 0 v))
    {A B : ℕ → Ω → ℝ} {a b : ℝ} (hA : ∀ n, AEMeasurable (A n) P) (hB : ∀ n, AEMeasurable (B n) P)
    (hAB : ∀ᵐ ω ∂P, Tendsto (fun n => A n ω) atTop (𝓝 a) ∧ Tendsto (fun n => B n ω) atTop (𝓝 b)) :
    Tendsto (fun n => P {ω | A n ω ≤ T n ω ∧ T n ω ≤ B n ω}) atTop (𝓝 (gaussianReal 0 v (Set.Icc a b))) := by
  have hm : TendstoInMeasure P (fun n ω => (A n ω, B n ω)) atTop fun _ => (a, b) := by
    refine tendstoInMeasure_of_tendsto_ae (fun n => ((hA n).prodMk (hB n)).aestronglyMeasurable) ?_
    filter_upwards [hAB] with ω h
    exact h.1.prodMk_nhds h.2
  have hg : Continuous fun p : ℝ × (ℝ × ℝ) => max (p.2.1 - p.1) (p.1 - p.2.2) := by fun_prop
  have hD := hT.continuous_comp_prodMk_of_tendstoInMeasure_const hg hm (fun n => (hA n).prodMk (hB n))
  have hnull : ((gaussianReal 0 v).map fun x => max (a - x) (x - b)) (frontier (Set.Iic 0)) = 0 := by
    rw [frontier_Iic, Measure.map_apply (by fun_prop) (measurableSet_singleton _)]
    refine measure_mono_null (t := {a} ∪ {b}) ?_ ?_
    · intro x hx
      simp only [Set.mem_preimage, Set.mem_singleton_iff] at hx
      rcases max_choice (a - x) (x - b) with h | h
      · rw [h] at hx; left; simp; linarith
      · rw [h] at hx; right; simp; linarith
    · exact measure_union_null (gaussian_singleton hv _) (gaussian_singleton hv _)
  have := ProbabilityMeasure.tendsto_measure_of_null_frontier_of_tendsto' hD.tendsto (E := Set.Iic 0) hnull
  have e1 : ∀ n, (P.map fun ω => max (A n ω - T n ω) (T n ω - B n ω)) (Set.Iic 0) = P {ω | A n ω ≤ T n ω ∧ T n ω ≤ B n ω} := by
    intro n
    rw [Measure.map_apply_of_aemeasurable (hD.forall_aemeasurable n) measurableSet_Iic]
    congr 1
    ext ω
    simp
  have e2 : ((gaussianReal 0 v).map fun x => max (a - x) (x - b)) (Set.Iic 0) = gaussianReal 0 v (Set.Icc a b) := by
    rw [Measure.map_apply (by fun_prop) measurableSet_Iic]
    congr 1
    ext x
    simp
  rw [← e2]
  refine this.congr fun n => ?_
  exact e1 n

end
end Verif
