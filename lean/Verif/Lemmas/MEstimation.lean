import Mathlib.Analysis.Convex.Function
import Mathlib.Analysis.Convex.Deriv
import Mathlib.Topology.MetricSpace.ProperSpace
import Mathlib.Topology.Algebra.Order.Archimedean
import Mathlib.Analysis.Normed.Module.FiniteDimension
import Mathlib.Order.Filter.Finite

/-!
# Minimisers of convex functions
-/

namespace Verif
open Filter Topology Set

variable {E : Type} [NormedAddCommGroup E] [NormedSpace ℝ E]

/-- a point outside the ball of radius `r` is on a ray through the sphere -/
theorem exists_sphere {a t : E} {r : ℝ} (hr : 0 < r) (h : r < ‖t - a‖) : ∃ c : ℝ, 0 < c ∧ c < 1 ∧ ‖((1 - c) • a + c • t) - a‖ = r := by
  have h0 : 0 < ‖t - a‖ := hr.trans h
  refine ⟨r / ‖t - a‖, div_pos hr h0, (div_lt_one h0).2 h, ?_⟩
  rw [show ((1 - r / ‖t - a‖) • a + (r / ‖t - a‖) • t) - a = (r / ‖t - a‖) • (t - a) from by
    rw [sub_smul, one_smul, smul_sub]; abel]
  rw [norm_smul, Real.norm_of_nonneg (div_nonneg hr.le h0.le), div_mul_cancel₀ _ h0.ne']

/-- a convex function that exceeds its value at `a` on a sphere around `a` exceeds it outside the sphere -/
theorem convex_outside {G : E → ℝ} (hG : ConvexOn ℝ univ G) {a : E} {r : ℝ} (hr : 0 < r) (hs : ∀ t, ‖t - a‖ = r → G a < G t) {t : E}
    (ht : r < ‖t - a‖) : G a < G t := by
  obtain ⟨c, h0, h1, h2⟩ := exists_sphere hr ht
  have h3 := hs _ h2
  have h4 := hG.2 (mem_univ a) (mem_univ t) (sub_nonneg.2 h1.le) h0.le (by ring)
  simp only [smul_eq_mul] at h4
  nlinarith

/-- Minimisers of penalised convex losses that converge pointwise converge to the unique minimiser of the limit. -/
theorem argmin_tendsto [ProperSpace E] {L : ℕ → E → ℝ} {F Q : E → ℝ} {c : ℕ → ℝ} {D : Set E} {K : ℝ} {θ : ℕ → E} {θ0 : E}
    (hconv : ∀ n, ConvexOn ℝ univ fun t => L n t + c n * Q t) (hQ : ∀ t, 0 ≤ Q t) (hc0 : ∀ n, 0 ≤ c n) (hc : Tendsto c atTop (𝓝 0))
    (hlip : ∀ᶠ n in atTop, ∀ a b, |L n a - L n b| ≤ K * ‖a - b‖) (hF : Continuous F) (hD : Dense D)
    (hpt : ∀ q ∈ D, Tendsto (fun n => L n q) atTop (𝓝 (F q))) (hmin : ∀ t, t ≠ θ0 → F θ0 < F t)
    (hopt : ∀ᶠ n in atTop, ∀ t, L n (θ n) + c n * Q (θ n) ≤ L n t + c n * Q t) : Tendsto θ atTop (𝓝 θ0) := by
  -- convergence at all points
  have hpt' : ∀ a, Tendsto (fun n => L n a) atTop (𝓝 (F a)) := by
    intro a
    rw [Metric.tendsto_atTop]
    intro ε hε
    have hK : 0 < |K| + 1 := by positivity
    obtain ⟨r, hr, hFr⟩ := Metric.continuousAt_iff.1 (hF.continuousAt (x := a)) (ε / 3) (by positivity)
    obtain ⟨q, hq, hqa⟩ := hD.exists_dist_lt a (ε := min r (ε / (3 * (|K| + 1)))) (lt_min hr (by positivity))
    obtain ⟨N1, hN1⟩ := eventually_atTop.1 hlip
    obtain ⟨N2, hN2⟩ := Metric.tendsto_atTop.1 (hpt q hq) (ε / 3) (by positivity)
    refine ⟨max N1 N2, fun n hn => ?_⟩
    have h1 := hN1 n ((le_max_left _ _).trans hn) a q
    have h2 := hN2 n ((le_max_right _ _).trans hn)
    have h3 := hFr (x := q) (by rw [dist_comm]; exact hqa.trans_le (min_le_left _ _))
    rw [Real.dist_eq] at h2 h3 ⊢
    rw [dist_eq_norm] at hqa
    have h4 : K * ‖a - q‖ < ε / 3 := by
      have : ‖a - q‖ < ε / (3 * (|K| + 1)) := hqa.trans_le (min_le_right _ _)
      calc K * ‖a - q‖ ≤ (|K| + 1) * ‖a - q‖ := mul_le_mul_of_nonneg_right (by linarith [le_abs_self K]) (norm_nonneg _)
        _ < (|K| + 1) * (ε / (3 * (|K| + 1))) := mul_lt_mul_of_pos_left this hK
        _ = ε / 3 := by field_simp
    have h5 := abs_le.1 (h1.trans h4.le)
    have h6 := abs_lt.1 h2
    have h7 := abs_lt.1 h3
    have h1' := abs_lt.1 (h1.trans_lt h4)
    rw [abs_lt]
    constructor <;> linarith [h1'.1, h1'.2]
  rw [Metric.tendsto_atTop']
  intro ε hε
  -- a gap on a sphere
  have hr : (0 : ℝ) < ε / 2 := by positivity
  obtain ⟨η, hη, hgap⟩ : ∃ η > 0, ∀ t ∈ Metric.sphere θ0 (ε / 2), F θ0 + η ≤ F t := by
    by_cases hne : (Metric.sphere θ0 (ε / 2)).Nonempty
    · obtain ⟨t, ht, hm⟩ := (isCompact_sphere θ0 (ε / 2)).exists_isMinOn hne hF.continuousOn
      have htne : t ≠ θ0 := by
        rintro rfl
        simp at ht
        linarith
      exact ⟨F t - F θ0, by linarith [hmin t htne], fun t' ht' => by linarith [isMinOn_iff.1 hm t' ht']⟩
    · exact ⟨1, one_pos, fun t ht => absurd ⟨t, ht⟩ hne⟩
  have hK : 0 < |K| + 1 := by positivity
  obtain ⟨T, hT, hfin, hcov⟩ := (isCompact_sphere θ0 (ε / 2)).finite_cover_balls (e := η / (8 * (|K| + 1))) (by positivity)
  have e1 : ∀ᶠ n in atTop, ∀ a ∈ T, |L n a - F a| < η / 8 := by
    rw [hfin.eventually_all]
    intro a _
    exact (Metric.tendsto_nhds.1 (hpt' a)) _ (by positivity)
  have e2 : ∀ᶠ n in atTop, |L n θ0 - F θ0| < η / 8 := (Metric.tendsto_nhds.1 (hpt' θ0)) _ (by positivity)
  have e3 : ∀ᶠ n in atTop, c n * Q θ0 < η / 8 := by
    have : Tendsto (fun n => c n * Q θ0) atTop (𝓝 (0 * Q θ0)) := hc.mul_const _
    rw [zero_mul] at this
    exact this.eventually_lt_const (by positivity)
  obtain ⟨N, hN⟩ := eventually_atTop.1 (e1.and (e2.and (e3.and (hlip.and hopt))))
  refine ⟨N, fun n hn => ?_⟩
  obtain ⟨h1, h2, h3, h4, h5⟩ := hN n hn.le
  have hsph : ∀ t, ‖t - θ0‖ = ε / 2 → L n θ0 + c n * Q θ0 < L n t + c n * Q t := by
    intro t ht
    have hts : t ∈ Metric.sphere θ0 (ε / 2) := by rw [mem_sphere_iff_norm]; exact ht
    obtain ⟨a, haT, hta⟩ := mem_iUnion₂.1 (hcov hts)
    rw [Metric.mem_ball, dist_eq_norm] at hta
    have h6 := h4 t a
    have h7 : K * ‖t - a‖ < η / 8 := by
      calc K * ‖t - a‖ ≤ (|K| + 1) * ‖t - a‖ := mul_le_mul_of_nonneg_right (by linarith [le_abs_self K]) (norm_nonneg _)
        _ < (|K| + 1) * (η / (8 * (|K| + 1))) := mul_lt_mul_of_pos_left hta hK
        _ = η / 8 := by field_simp
    have h8 := abs_le.1 h6
    have h9 := abs_lt.1 (h1 a haT)
    have h10 := hgap a (hT haT)
    have h11 := abs_lt.1 h2
    have h12 := mul_nonneg (hc0 n) (hQ t)
    linarith [h8.1, h9.1, h11.2]
  by_contra hcon
  rw [dist_eq_norm] at hcon
  have := convex_outside (hconv n) hr hsph (t := θ n) (by linarith)
  linarith [h5 θ0]

/-- A continuous convex function that rises on every ray from `a` has a minimiser. -/
theorem exists_argmin [ProperSpace E] {G : E → ℝ} (hG : ConvexOn ℝ univ G) (hcont : Continuous G) (a : E)
    (hray : ∀ v, v ≠ 0 → ∃ s : ℝ, 0 < s ∧ G a < G (a + s • v)) : ∃ t, ∀ t', G t ≤ G t' := by
  -- on the sphere, a common radius
  have hR : ∃ R > 0, ∀ t, ‖t - a‖ = R → G a < G t := by
    choose! σ hσ0 hσ using hray
    let U : E → Set E := fun v => {w | G a < G (a + σ v • w)}
    have hU : ∀ v, IsOpen (U v) := fun v => isOpen_lt continuous_const (by fun_prop)
    obtain ⟨T, hTs, hT⟩ := (isCompact_sphere (0 : E) 1).elim_nhds_subcover U fun v hv => (hU v).mem_nhds (hσ v (by
      rintro rfl; simp at hv))
    refine ⟨1 + ∑ v ∈ T, |σ v|, by have : 0 ≤ ∑ v ∈ T, |σ v| := Finset.sum_nonneg fun v _ => abs_nonneg _
                                   linarith, fun t ht => ?_⟩
    set R := 1 + ∑ v ∈ T, |σ v| with hRdef
    have hR1 : 1 ≤ R := by have : 0 ≤ ∑ v ∈ T, |σ v| := Finset.sum_nonneg fun v _ => abs_nonneg _
                           linarith
    have hR0 : 0 < R := by linarith
    have hw : R⁻¹ • (t - a) ∈ Metric.sphere (0 : E) 1 := by
      rw [mem_sphere_zero_iff_norm, norm_smul, ht, norm_inv, Real.norm_of_nonneg hR0.le, inv_mul_cancel₀ hR0.ne']
    obtain ⟨v, hvT, hv⟩ := mem_iUnion₂.1 (hT hw)
    have hv' : G a < G (a + σ v • R⁻¹ • (t - a)) := hv
    have hv0 : v ≠ 0 := by
      have := hTs v hvT
      rintro rfl
      simp at this
    have hs0 := hσ0 v hv0
    have hsR : σ v < R := by
      have h1 : |σ v| ≤ ∑ v ∈ T, |σ v| := Finset.single_le_sum (f := fun v => |σ v|) (fun v _ => abs_nonneg _) hvT
      have := le_abs_self (σ v)
      linarith
    have hp : 0 ≤ 1 - σ v * R⁻¹ := by
      rw [sub_nonneg, ← div_eq_mul_inv]; exact (div_le_one hR0).2 hsR.le
    have hq : 0 ≤ σ v * R⁻¹ := by positivity
    have h4 := hG.2 (mem_univ a) (mem_univ t) hp hq (by ring)
    rw [show (1 - σ v * R⁻¹) • a + (σ v * R⁻¹) • t = a + σ v • R⁻¹ • (t - a) from by
      rw [sub_smul, one_smul, smul_smul, smul_sub]; abel] at h4
    simp only [smul_eq_mul] at h4
    have h5 : 0 < σ v * R⁻¹ := by positivity
    by_contra h6
    push Not at h6
    nlinarith
  obtain ⟨R, hR0, hR⟩ := hR
  obtain ⟨t, ht, hm⟩ := (isCompact_closedBall a R).exists_isMinOn ⟨a, by simp [hR0.le]⟩ hcont.continuousOn
  refine ⟨t, fun t' => ?_⟩
  by_cases h : ‖t' - a‖ ≤ R
  · exact isMinOn_iff.1 hm t' (by rw [mem_closedBall_iff_norm]; exact h)
  · push Not at h
    exact (isMinOn_iff.1 hm a (by simp [hR0.le])).trans (convex_outside hG hR0 hR h).le

end Verif
