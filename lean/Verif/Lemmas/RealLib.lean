import Verif.Model.RealLib

/-!
# Facts about quantiles
-/

namespace Verif

open MeasureTheory ProbabilityTheory Filter Topology

variable (μ : Measure ℝ)

theorem quantile_set_nonempty {p : ℝ} (hp : p < 1) : {x | p ≤ cdf μ x}.Nonempty := by
  have h := (tendsto_cdf_atTop μ).eventually (eventually_gt_nhds hp)
  obtain ⟨x, hx⟩ := h.exists
  exact ⟨x, hx.le⟩

theorem quantile_set_bddBelow {p : ℝ} (hp : 0 < p) : BddBelow {x | p ≤ cdf μ x} := by
  have h := (tendsto_cdf_atBot μ).eventually (eventually_lt_nhds hp)
  obtain ⟨x, hx⟩ := h.exists
  refine ⟨x, ?_⟩
  intro y hy
  by_contra hc
  push Not at hc
  have := monotone_cdf μ hc.le
  simp only [Set.mem_ofPred_eq] at hy
  linarith

/-- levels up to `cdf a` have a quantile at most `a` -/
theorem quantile_le {p a : ℝ} (hp : 0 < p) (h : p ≤ cdf μ a) : quantile μ p ≤ a :=
  csInf_le (quantile_set_bddBelow μ hp) h

/-- levels above `cdf a` have a quantile strictly above `a` (right-continuity) -/
theorem lt_quantile {p a : ℝ} (hp1 : p < 1) (h : cdf μ a < p) : a < quantile μ p := by
  have hc := (cdf μ).right_continuous a
  have h2 : ∀ᶠ x in 𝓝[≥] a, cdf μ x < p := hc.eventually (eventually_lt_nhds h)
  rw [eventually_nhdsWithin_iff, Metric.eventually_nhds_iff] at h2
  obtain ⟨ε, hε, h2⟩ := h2
  have : a + ε / 2 ≤ quantile μ p := by
    apply le_csInf (quantile_set_nonempty μ hp1)
    intro x hx
    by_contra hc
    push Not at hc
    by_cases hxa : x ≤ a
    · have := monotone_cdf μ hxa
      simp only [Set.mem_ofPred_eq] at hx
      linarith
    · push Not at hxa
      have := h2 (y := x) (by rw [Real.dist_eq, abs_of_pos (by linarith)]; linarith) hxa.le
      simp only [Set.mem_ofPred_eq] at hx
      linarith
  linarith

/-- the standard normal law puts half of its mass on each side of zero -/
theorem cdf_gaussian_zero : cdf (gaussianReal 0 1) 0 = 1 / 2 := by
  have hna := nullSingletonClass_gaussianReal (μ := 0) (v := 1) one_ne_zero
  set γ := gaussianReal 0 1
  have h1 : γ.real (Set.Iic 0) = γ.real (Set.Ici 0) := by
    have hm : γ.map (fun x => -x) = γ := by
      have := gaussianReal_map_neg (μ := 0) (v := 1)
      rw [neg_zero] at this
      exact this
    have h2 : γ.map (fun x => -x) (Set.Iic 0) = γ (Set.Ici 0) := by
      rw [Measure.map_apply measurable_neg measurableSet_Iic]
      congr 1
      ext x; simp
    rw [hm] at h2
    simp only [Measure.real, h2]
  have h3 : γ.real (Set.Ioi 0) = γ.real (Set.Ici 0) := by
    simp only [Measure.real]
    rw [measure_congr Ioi_ae_eq_Ici]
  have h4 : γ.real (Set.Iic 0) + γ.real (Set.Ioi 0) = 1 := by
    rw [← measureReal_union (by rw [Set.disjoint_left]; intro x hx hx'; simp at hx hx'; linarith) measurableSet_Ioi,
      Set.Iic_union_Ioi]
    simp
  rw [cdf_eq_real]
  linarith

theorem normal_quantile_nonpos {p : ℝ} (hp : 0 < p) (h : p ≤ 1 / 2) : quantile (gaussianReal 0 1) p ≤ 0 :=
  quantile_le _ hp (by rw [cdf_gaussian_zero]; exact h)

theorem normal_quantile_pos {p : ℝ} (h : 1 / 2 < p) (hp : p < 1) : 0 < quantile (gaussianReal 0 1) p :=
  lt_quantile _ hp (by rw [cdf_gaussian_zero]; exact h)

theorem cdf_gamma_zero {a : ℝ} (ha : 0 < a) : cdf (gammaMeasure a (1 / 2)) 0 = 0 := by
  have := isProbabilityMeasure_gammaMeasure ha (r := 1 / 2) (by norm_num)
  rw [cdf_gammaMeasure_eq_lintegral ha (by norm_num)]
  have h : ∫⁻ x in Set.Iic (0 : ℝ), gammaPDF a (1 / 2) x = ∫⁻ x in Set.Iio (0 : ℝ), gammaPDF a (1 / 2) x :=
    setLIntegral_congr Iio_ae_eq_Iic.symm
  rw [h, lintegral_gammaPDF_of_nonpos le_rfl]
  simp

end Verif
