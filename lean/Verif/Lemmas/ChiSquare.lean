import Verif.Lemmas.Coverage4
import Verif.Lemmas.CoverageDemo2
import Mathlib.Probability.Distributions.Gamma
import Mathlib.Probability.Moments.ComplexMGF

/-!
# The chi-square distribution: moments, additivity, asymptotic normality of its quantiles
-/

set_option linter.unusedSectionVars false

namespace Verif
open MeasureTheory ProbabilityTheory Filter Topology Set

theorem gamma_integral {a r : ℝ} (ha : 0 < a) (hr : 0 < r) (f : ℝ → ℝ) :
    ∫ x, f x ∂gammaMeasure a r = r ^ a / Real.Gamma a * ∫ x in Ioi 0, x ^ (a - 1) * Real.exp (-(r * x)) * f x := by
  unfold gammaMeasure
  rw [integral_withDensity_eq_integral_toReal_smul (by unfold gammaPDF; fun_prop) (by simp [gammaPDF])]
  rw [← setIntegral_eq_integral_of_forall_compl_eq_zero (s := Ici 0), integral_Ici_eq_integral_Ioi, ← integral_const_mul]
  · refine setIntegral_congr_fun measurableSet_Ioi fun x hx => ?_
    have hx' : (0 : ℝ) < x := hx
    simp only [gammaPDF, ENNReal.toReal_ofReal (gammaPDFReal_nonneg ha hr x), smul_eq_mul]
    unfold gammaPDFReal
    rw [if_pos hx'.le]
    ring
  · intro x hx
    rw [gammaPDF_of_neg (by simpa using hx)]
    simp

theorem gamma_mgf {a r t : ℝ} (ha : 0 < a) (hr : 0 < r) (ht : t < r) : mgf id (gammaMeasure a r) t = (r / (r - t)) ^ a := by
  unfold mgf
  rw [gamma_integral ha hr]
  have : ∀ x : ℝ, x ^ (a - 1) * Real.exp (-(r * x)) * Real.exp (t * id x) = x ^ (a - 1) * Real.exp (-((r - t) * x)) := fun x => by
    rw [mul_assoc, ← Real.exp_add]; congr 2; simp only [id]; ring
  simp only [this]
  rw [Real.integral_rpow_mul_exp_neg_mul_Ioi ha (by linarith), Real.div_rpow zero_le_one (by linarith), Real.one_rpow,
    Real.div_rpow hr.le (by linarith)]
  have := (Real.Gamma_pos_of_pos ha).ne'
  field_simp

theorem gamma_mgf_undef {a r t : ℝ} (ha : 0 < a) (hr : 0 < r) (ht : r ≤ t) : mgf id (gammaMeasure a r) t = 0 := by
  unfold mgf
  rw [gamma_integral ha hr]
  rw [integral_undef, mul_zero]
  intro h
  refine not_integrableOn_Ioi_rpow (a - 1) ?_
  refine Integrable.mono' h ?_ ?_
  · exact (measurable_id.pow_const _).aestronglyMeasurable
  · rw [ae_restrict_iff' measurableSet_Ioi]
    refine Eventually.of_forall fun x hx => ?_
    have hx' : (0 : ℝ) < x := hx
    have h1 : 0 < x ^ (a - 1) := Real.rpow_pos_of_pos hx' _
    rw [Real.norm_of_nonneg h1.le, mul_assoc, ← Real.exp_add]
    refine le_mul_of_one_le_right h1.le (Real.one_le_exp ?_)
    simp only [id]
    nlinarith

theorem gamma_exp {a r t : ℝ} (ha : 0 < a) (hr : 0 < r) (ht : t < r) : t ∈ integrableExpSet id (gammaMeasure a r) := by
  by_contra h
  have h0 : mgf id (gammaMeasure a r) t = 0 := integral_undef h
  rw [gamma_mgf ha hr ht] at h0
  have : 0 < (r / (r - t)) ^ a := Real.rpow_pos_of_pos (div_pos hr (by linarith)) _
  linarith

theorem gamma_interior {a r : ℝ} (ha : 0 < a) (hr : 0 < r) : 0 ∈ interior (integrableExpSet id (gammaMeasure a r)) := by
  rw [mem_interior]
  exact ⟨Iio r, fun t ht => gamma_exp ha hr ht, isOpen_Iio, hr⟩

theorem gamma_mean {a r : ℝ} (ha : 0 < a) (hr : 0 < r) : ∫ x, x ∂gammaMeasure a r = a / r := by
  rw [gamma_integral ha hr]
  have : ∫ x in Ioi (0 : ℝ), x ^ (a - 1) * Real.exp (-(r * x)) * x = ∫ x in Ioi (0 : ℝ), x ^ (a + 1 - 1) * Real.exp (-(r * x)) := by
    refine setIntegral_congr_fun measurableSet_Ioi fun x hx => ?_
    have hx' : (0 : ℝ) < x := hx
    rw [show a + 1 - 1 = a - 1 + 1 by ring, Real.rpow_add_one hx'.ne']
    ring
  rw [this, Real.integral_rpow_mul_exp_neg_mul_Ioi (by linarith) hr, Real.Gamma_add_one ha.ne', Real.div_rpow zero_le_one hr.le, Real.one_rpow,
    Real.rpow_add_one hr.ne']
  have := (Real.Gamma_pos_of_pos ha).ne'
  have := (Real.rpow_pos_of_pos hr a).ne'
  field_simp

theorem gamma_sq {a r : ℝ} (ha : 0 < a) (hr : 0 < r) : ∫ x, x ^ 2 ∂gammaMeasure a r = a * (a + 1) / r ^ 2 := by
  rw [gamma_integral ha hr]
  have : ∫ x in Ioi (0 : ℝ), x ^ (a - 1) * Real.exp (-(r * x)) * x ^ 2 = ∫ x in Ioi (0 : ℝ), x ^ (a + 1 + 1 - 1) * Real.exp (-(r * x)) := by
    refine setIntegral_congr_fun measurableSet_Ioi fun x hx => ?_
    have hx' : (0 : ℝ) < x := hx
    rw [show a + 1 + 1 - 1 = a - 1 + 1 + 1 by ring, Real.rpow_add_one hx'.ne', Real.rpow_add_one hx'.ne']
    ring
  rw [this, Real.integral_rpow_mul_exp_neg_mul_Ioi (by linarith) hr, Real.Gamma_add_one (by linarith), Real.Gamma_add_one ha.ne',
    Real.div_rpow zero_le_one hr.le, Real.one_rpow, Real.rpow_add_one hr.ne', Real.rpow_add_one hr.ne']
  have := (Real.Gamma_pos_of_pos ha).ne'
  have := (Real.rpow_pos_of_pos hr a).ne'
  field_simp

instance : IsProbabilityMeasure (gammaMeasure (1 / 2) (1 / 2)) := isProbabilityMeasure_gammaMeasure (by norm_num) (by norm_num)

/-- the sum of `n` independent squares of standard normal variables has `n` degrees of freedom -/
theorem chi2_sum {n : ℕ} (hn : 0 < n) :
    (draws (gammaMeasure (1 / 2) (1 / 2))).map (fun ω => ∑ i ∈ Finset.range n, coord i ω) = gammaMeasure ((n : ℝ) / 2) (1 / 2) := by
  have hn' : (0 : ℝ) < n := by exact_mod_cast hn
  have hp : IsProbabilityMeasure (gammaMeasure ((n : ℝ) / 2) (1 / 2)) := isProbabilityMeasure_gammaMeasure (by positivity) (by norm_num)
  have hm : AEMeasurable (fun ω : ℕ → ℝ => ∑ i ∈ Finset.range n, coord i ω) (draws (gammaMeasure (1 / 2) (1 / 2))) :=
    (Finset.measurable_sum _ fun i _ => measurable_coord i).aemeasurable
  have hpm : IsProbabilityMeasure ((draws (gammaMeasure (1 / 2) (1 / 2))).map (fun ω => ∑ i ∈ Finset.range n, coord i ω)) :=
    Measure.isProbabilityMeasure_map hm
  have hmgf : mgf id (gammaMeasure ((n : ℝ) / 2) (1 / 2)) = mgf id ((draws (gammaMeasure (1 / 2) (1 / 2))).map (fun ω => ∑ i ∈ Finset.range n, coord i ω)) := by
    ext t
    rw [mgf_id_map hm]
    have e : (fun ω : ℕ → ℝ => ∑ i ∈ Finset.range n, coord i ω) = ∑ i ∈ Finset.range n, coord i := by ext; simp
    rw [e, iIndepFun.mgf_sum iid_coord.indep measurable_coord]
    have e1 : ∀ i, mgf (coord i) (draws (gammaMeasure (1 / 2) (1 / 2))) t = mgf id (gammaMeasure (1 / 2) (1 / 2)) t := fun i => by
      conv_rhs => rw [← map_coord (μ := gammaMeasure (1 / 2) (1 / 2)) i, mgf_id_map (measurable_coord i).aemeasurable]
    simp only [e1, Finset.prod_const, Finset.card_range]
    rcases lt_or_ge t (1 / 2) with h | h
    · rw [gamma_mgf (by positivity) (by norm_num) h, gamma_mgf (by norm_num) (by norm_num) h, ← Real.rpow_natCast, ← Real.rpow_mul]
      · congr 1; ring
      · exact div_nonneg (by norm_num) (by linarith)
    · rw [gamma_mgf_undef (by positivity) (by norm_num) h, gamma_mgf_undef (by norm_num) (by norm_num) h, zero_pow hn.ne']
  have hc := eqOn_complexMGF_of_mgf hmgf
  refine (Measure.ext_of_charFun ?_).symm
  ext t
  have := hc (show (t * Complex.I : ℂ) ∈ {z : ℂ | z.re ∈ interior (integrableExpSet id (gammaMeasure ((n : ℝ) / 2) (1 / 2)))} by
    simp only [mem_ofPred_eq, Complex.mul_re, Complex.ofReal_re, Complex.I_re, mul_zero, Complex.ofReal_im, Complex.I_im, mul_one, sub_self]
    exact gamma_interior (by positivity) (by norm_num))
  rwa [complexMGF_id_mul_I, complexMGF_id_mul_I] at this

theorem chi_mean : (draws (gammaMeasure (1 / 2) (1 / 2)))[coord 0] = 1 := by
  have := integral_coord (μ := gammaMeasure (1 / 2) (1 / 2)) (fun x => x) measurable_id 0
  rw [this, gamma_mean (by norm_num) (by norm_num)]; norm_num

theorem chi_memLp : MemLp (coord 0) 2 (draws (gammaMeasure (1 / 2) (1 / 2))) := by
  have h : MemLp (id : ℝ → ℝ) (2 : NNReal) (gammaMeasure (1 / 2) (1 / 2)) :=
    memLp_of_mem_interior_integrableExpSet (gamma_interior (by norm_num) (by norm_num)) 2
  rw [← map_coord (μ := gammaMeasure (1 / 2) (1 / 2)) 0, memLp_map_measure_iff aestronglyMeasurable_id (measurable_coord 0).aemeasurable] at h
  exact h

theorem chi_var : Var[coord 0; draws (gammaMeasure (1 / 2) (1 / 2))] = 2 := by
  rw [variance_eq_sub chi_memLp, chi_mean]
  have := integral_coord (μ := gammaMeasure (1 / 2) (1 / 2)) (fun x => x ^ 2) (by fun_prop) 0
  simp only [Pi.pow_apply]
  rw [this, gamma_sq (by norm_num) (by norm_num)]; norm_num

/-- the distribution function of the chi-square law, standardised, tends to that of a normal law with variance 2 -/
theorem chi2_cdf (x : ℝ) :
    Tendsto (fun n : ℕ => cdf (gammaMeasure ((n : ℝ) / 2) (1 / 2)) (n + x * √n)) atTop (𝓝 (cdf (gaussianReal 0 2) x)) := by
  have h := clt_of (P := draws (gammaMeasure (1 / 2) (1 / 2))) iid_coord chi_memLp (Z := (id : ℝ → ℝ)) (P' := gaussianReal 0 2)
    ⟨aemeasurable_id, by rw [chi_var]; simp⟩
  have hnull : ((gaussianReal 0 2).map (id : ℝ → ℝ)) (frontier (Iic x)) = 0 := by
    rw [frontier_Iic, Measure.map_id]; exact gaussian_singleton (by norm_num) x
  have := ProbabilityMeasure.tendsto_measure_of_null_frontier_of_tendsto' h.tendsto (E := Iic x) hnull
  have h2 := (ENNReal.tendsto_toReal (by simp)).comp this
  simp only [ProbabilityMeasure.coe_mk, Measure.map_id] at h2
  rw [cdf_eq_real]
  refine h2.congr' ?_
  filter_upwards [eventually_gt_atTop 0] with n hn
  have hn' : (0 : ℝ) < n := by exact_mod_cast hn
  have hs : 0 < √(n : ℝ) := Real.sqrt_pos.mpr hn'
  have hp : IsProbabilityMeasure (gammaMeasure ((n : ℝ) / 2) (1 / 2)) := isProbabilityMeasure_gammaMeasure (by positivity) (by norm_num)
  rw [cdf_eq_real, ← chi2_sum hn, measureReal_def, Measure.map_apply (Finset.measurable_sum _ fun i _ => measurable_coord i) measurableSet_Iic]
  simp only [Function.comp_apply]
  rw [Measure.map_apply_of_aemeasurable (h.forall_aemeasurable n) measurableSet_Iic]
  congr 2
  ext ω
  simp only [mem_preimage, mem_Iic, chi_mean, mul_one]
  rw [inv_mul_le_iff₀ hs]
  constructor <;> intro h <;> linarith

theorem gaussian_cdf_lt {m : ℝ} {v : NNReal} (hv : v ≠ 0) {x y : ℝ} (h : x < y) : cdf (gaussianReal m v) x < cdf (gaussianReal m v) y := by
  have h2 := (cdf (gaussianReal m v)).measure_Ioc x y
  rw [measure_cdf] at h2
  have hpos : gaussianReal m v (Ioc x y) ≠ 0 := by
    intro h0
    have := gaussianReal_absolutelyContinuous' m hv h0
    rw [Real.volume_Ioc, ENNReal.ofReal_eq_zero] at this
    linarith
  rw [h2, Ne, ENNReal.ofReal_eq_zero, not_le] at hpos
  linarith

/-- the quantiles of the chi-square law, standardised, tend to those of a normal law with variance 2 -/
theorem chi2_quantile {p : ℝ} (h0 : 0 < p) (h1 : p < 1) :
    Tendsto (fun n : ℕ => (quantile (gammaMeasure ((n : ℝ) / 2) (1 / 2)) p - n) / √n) atTop (𝓝 (quantile (gaussianReal 0 2) p)) := by
  set q := quantile (gaussianReal 0 2) p
  have hq : cdf (gaussianReal 0 2) q = p := cdf_quantile _ (gaussian_singleton (by norm_num)) h0 h1
  refine tendsto_order.mpr ⟨fun a ha => ?_, fun b hb => ?_⟩
  · have := (chi2_cdf a).eventually (gt_mem_nhds (show cdf (gaussianReal 0 2) a < p by rw [← hq]; exact gaussian_cdf_lt (by norm_num) ha))
    filter_upwards [this, eventually_gt_atTop 0] with n hn hn0
    have hn' : (0 : ℝ) < n := by exact_mod_cast hn0
    have hp : IsProbabilityMeasure (gammaMeasure ((n : ℝ) / 2) (1 / 2)) := isProbabilityMeasure_gammaMeasure (by positivity) (by norm_num)
    rw [lt_div_iff₀ (Real.sqrt_pos.mpr hn')]
    have := lt_quantile (gammaMeasure ((n : ℝ) / 2) (1 / 2)) h1 hn
    linarith
  · obtain ⟨c, hc1, hc2⟩ := exists_between hb
    have := (chi2_cdf c).eventually (lt_mem_nhds (show p < cdf (gaussianReal 0 2) c by conv_lhs => rw [← hq]
                                                                                       exact gaussian_cdf_lt (by norm_num) hc1))
    filter_upwards [this, eventually_gt_atTop 0] with n hn hn0
    have hn' : (0 : ℝ) < n := by exact_mod_cast hn0
    have hp : IsProbabilityMeasure (gammaMeasure ((n : ℝ) / 2) (1 / 2)) := isProbabilityMeasure_gammaMeasure (by positivity) (by norm_num)
    have hs := Real.sqrt_pos.mpr hn'
    rw [div_lt_iff₀ hs]
    have := quantile_le (gammaMeasure ((n : ℝ) / 2) (1 / 2)) h0 hn.le
    nlinarith

/-- the quantiles of a normal law scale with its standard deviation -/
theorem quantile_scale {w p : ℝ} (hw : 0 < w) (h0 : 0 < p) (h1 : p < 1) :
    quantile (gaussianReal 0 w.toNNReal) p = √w * quantile (gaussianReal 0 1) p := by
  have hs : 0 < √w := Real.sqrt_pos.mpr hw
  have hw0 : w.toNNReal ≠ 0 := (Real.toNNReal_pos.mpr hw).ne'
  have e1 := cdf_quantile (gaussianReal 0 w.toNNReal) (gaussian_singleton hw0) h0 h1
  have e2 := cdf_quantile (gaussianReal 0 1) (gaussian_singleton one_ne_zero) h0 h1
  have e3 : cdf (gaussianReal 0 w.toNNReal) (√w * quantile (gaussianReal 0 1) p) = cdf (gaussianReal 0 1) (quantile (gaussianReal 0 1) p) := by
    have h := gaussianReal_map_const_mul (μ := 0) (v := 1) (√w)
    have h1 : NNReal.mk (√w ^ 2) (sq_nonneg _) * 1 = w.toNNReal := by
      rw [mul_one]
      apply NNReal.coe_injective
      rw [Real.coe_toNNReal _ hw.le]
      exact Real.sq_sqrt hw.le
    rw [mul_zero, h1] at h
    rw [cdf_eq_real, cdf_eq_real, ← h, measureReal_def, measureReal_def, Measure.map_apply (by fun_prop) measurableSet_Iic]
    congr 2
    ext x
    simp only [mem_preimage, mem_Iic]
    exact mul_le_mul_iff_right₀ hs
  replace e3 := (e3.trans e2).trans e1.symm
  rcases lt_trichotomy (quantile (gaussianReal 0 w.toNNReal) p) (√w * quantile (gaussianReal 0 1) p) with h | h | h
  · exact absurd e3 (gaussian_cdf_lt hw0 h).ne'
  · exact h
  · exact absurd e3 (gaussian_cdf_lt hw0 h).ne

end Verif
