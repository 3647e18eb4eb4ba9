import Verif.Lemmas.ExampleScm

/-!
# C65 the statistics of the example SCMs
-/

set_option linter.unusedSectionVars false
set_option linter.unusedSimpArgs false

namespace Verif
namespace Example
open MeasureTheory ProbabilityTheory

/-! ## Evaluation of the expectations -/

theorem back_int {p alpha : ℝ} (hp : 0 ≤ p ∧ p ≤ 1) (ha : 0 ≤ 1 / 2 + alpha ∧ 1 / 2 + alpha ≤ 1) (f : ℝ → ℝ → ℝ) :
    (∫ u in (0 : ℝ)..1, ∫ v in (0 : ℝ)..1, f (bZ p u) (bX p alpha u v)) =
      p * ((1 / 2 + alpha) * f 1 1 + (1 / 2 - alpha) * f 1 0) + (1 - p) * (1 / 2 * f 0 1 + 1 / 2 * f 0 0) := by
  have inner : ∀ u, (∫ v in (0 : ℝ)..1, f (bZ p u) (bX p alpha u v)) =
      (fun z => (1 / 2 + alpha * z) * f z 1 + (1 - (1 / 2 + alpha * z)) * f z 0) (bit p u) := by
    intro u
    unfold bX bZ
    refine integral_bit _ ?_ ?_ (f (bit p u))
    · unfold bit; split <;> linarith
    · unfold bit; split <;> linarith
  simp only [inner]
  rw [integral_bit p hp.1 hp.2 fun z => (1 / 2 + alpha * z) * f z 1 + (1 - (1 / 2 + alpha * z)) * f z 0]
  ring

theorem front_int {p alpha1 beta : ℝ} (hp : 0 ≤ p ∧ p ≤ 1) (f : ℝ → ℝ → ℝ → ℝ) :
    (∫ u in (0 : ℝ)..1, ∫ v in (0 : ℝ)..1, ∫ t in (0 : ℝ)..1, f (fU p u) (fX p alpha1 u v) (fZ beta (fX p alpha1 u v) t)) =
      p * (logistic alpha1 * (logistic beta * f 1 1 1 + (1 - logistic beta) * f 1 1 0) +
        (1 - logistic alpha1) * (1 / 2 * f 1 0 1 + 1 / 2 * f 1 0 0)) +
      (1 - p) * (1 / 2 * (logistic beta * f 0 1 1 + (1 - logistic beta) * f 0 1 0) +
        1 / 2 * (1 / 2 * f 0 0 1 + 1 / 2 * f 0 0 0)) := by
  have i1 : ∀ u v, (∫ t in (0 : ℝ)..1, f (fU p u) (fX p alpha1 u v) (fZ beta (fX p alpha1 u v) t)) =
      (fun x => logistic (beta * x) * f (bit p u) x 1 + (1 - logistic (beta * x)) * f (bit p u) x 0)
        (bit (logistic (alpha1 * fU p u)) v) := by
    intro u v
    exact integral_bit _ (logistic_mem _).1.le (logistic_mem _).2.le (f (fU p u) (fX p alpha1 u v))
  have i2 : ∀ u, (∫ v in (0 : ℝ)..1, (fun x => logistic (beta * x) * f (bit p u) x 1 + (1 - logistic (beta * x)) * f (bit p u) x 0)
        (bit (logistic (alpha1 * fU p u)) v)) =
      (fun a => logistic (alpha1 * a) * (logistic (beta * 1) * f a 1 1 + (1 - logistic (beta * 1)) * f a 1 0) +
        (1 - logistic (alpha1 * a)) * (logistic (beta * 0) * f a 0 1 + (1 - logistic (beta * 0)) * f a 0 0)) (bit p u) := by
    intro u
    exact integral_bit _ (logistic_mem _).1.le (logistic_mem _).2.le
      fun x => logistic (beta * x) * f (bit p u) x 1 + (1 - logistic (beta * x)) * f (bit p u) x 0
  simp only [i1, i2]
  rw [integral_bit p hp.1 hp.2 fun a => logistic (alpha1 * a) * (logistic (beta * 1) * f a 1 1 + (1 - logistic (beta * 1)) * f a 1 0) +
        (1 - logistic (alpha1 * a)) * (logistic (beta * 0) * f a 0 1 + (1 - logistic (beta * 0)) * f a 0 0)]
  simp only [mul_one, mul_zero, logistic_zero]
  ring

/-- An expectation of a function of the binary variables only. -/
theorem E2_bits {p alpha : ℝ} (hp : 0 ≤ p ∧ p ≤ 1) (ha : 0 ≤ 1 / 2 + alpha ∧ 1 / 2 + alpha ≤ 1) (f : ℝ → ℝ → ℝ) :
    E2 (fun u v _ => f (bZ p u) (bX p alpha u v)) =
      p * ((1 / 2 + alpha) * f 1 1 + (1 / 2 - alpha) * f 1 0) + (1 - p) * (1 / 2 * f 0 1 + 1 / 2 * f 0 0) := by
  unfold E2
  simp only [gauss_const]
  exact back_int hp ha f

theorem E2_shift {p alpha : ℝ} (hp : 0 ≤ p ∧ p ≤ 1) (ha : 0 ≤ 1 / 2 + alpha ∧ 1 / 2 + alpha ≤ 1) (f : ℝ → ℝ → ℝ) :
    E2 (fun u v e => f (bZ p u) (bX p alpha u v) + e) =
      p * ((1 / 2 + alpha) * f 1 1 + (1 / 2 - alpha) * f 1 0) + (1 - p) * (1 / 2 * f 0 1 + 1 / 2 * f 0 0) := by
  unfold E2
  simp only [gauss_shift]
  exact back_int hp ha f

theorem E2_sq {p alpha : ℝ} (hp : 0 ≤ p ∧ p ≤ 1) (ha : 0 ≤ 1 / 2 + alpha ∧ 1 / 2 + alpha ≤ 1) (f : ℝ → ℝ → ℝ) :
    E2 (fun u v e => (f (bZ p u) (bX p alpha u v) + e) ^ 2) =
      1 + (p * ((1 / 2 + alpha) * f 1 1 ^ 2 + (1 / 2 - alpha) * f 1 0 ^ 2) + (1 - p) * (1 / 2 * f 0 1 ^ 2 + 1 / 2 * f 0 0 ^ 2)) := by
  unfold E2
  simp only [gauss_sq]
  rw [back_int hp ha fun z x => f z x ^ 2 + 1]
  ring

theorem E3_bits {p alpha1 beta : ℝ} (hp : 0 ≤ p ∧ p ≤ 1) (f : ℝ → ℝ → ℝ → ℝ) :
    E3 (fun u v t _ => f (fU p u) (fX p alpha1 u v) (fZ beta (fX p alpha1 u v) t)) =
      p * (logistic alpha1 * (logistic beta * f 1 1 1 + (1 - logistic beta) * f 1 1 0) +
        (1 - logistic alpha1) * (1 / 2 * f 1 0 1 + 1 / 2 * f 1 0 0)) +
      (1 - p) * (1 / 2 * (logistic beta * f 0 1 1 + (1 - logistic beta) * f 0 1 0) +
        1 / 2 * (1 / 2 * f 0 0 1 + 1 / 2 * f 0 0 0)) := by
  unfold E3
  simp only [gauss_const]
  exact front_int hp f

theorem E3_shift {p alpha1 beta : ℝ} (hp : 0 ≤ p ∧ p ≤ 1) (f : ℝ → ℝ → ℝ → ℝ) :
    E3 (fun u v t e => f (fU p u) (fX p alpha1 u v) (fZ beta (fX p alpha1 u v) t) + e) =
      p * (logistic alpha1 * (logistic beta * f 1 1 1 + (1 - logistic beta) * f 1 1 0) +
        (1 - logistic alpha1) * (1 / 2 * f 1 0 1 + 1 / 2 * f 1 0 0)) +
      (1 - p) * (1 / 2 * (logistic beta * f 0 1 1 + (1 - logistic beta) * f 0 1 0) +
        1 / 2 * (1 / 2 * f 0 0 1 + 1 / 2 * f 0 0 0)) := by
  unfold E3
  simp only [gauss_shift]
  exact front_int hp f

theorem E3_sq {p alpha1 beta : ℝ} (hp : 0 ≤ p ∧ p ≤ 1) (f : ℝ → ℝ → ℝ → ℝ) :
    E3 (fun u v t e => (f (fU p u) (fX p alpha1 u v) (fZ beta (fX p alpha1 u v) t) + e) ^ 2) =
      1 + (p * (logistic alpha1 * (logistic beta * f 1 1 1 ^ 2 + (1 - logistic beta) * f 1 1 0 ^ 2) +
        (1 - logistic alpha1) * (1 / 2 * f 1 0 1 ^ 2 + 1 / 2 * f 1 0 0 ^ 2)) +
      (1 - p) * (1 / 2 * (logistic beta * f 0 1 1 ^ 2 + (1 - logistic beta) * f 0 1 0 ^ 2) +
        1 / 2 * (1 / 2 * f 0 0 1 ^ 2 + 1 / 2 * f 0 0 0 ^ 2))) := by
  unfold E3
  simp only [gauss_sq]
  rw [front_int hp fun a b c => f a b c ^ 2 + 1]
  ring

theorem E3_do {p beta : ℝ} (hp : 0 ≤ p ∧ p ≤ 1) (x : ℝ) (f : ℝ → ℝ → ℝ) :
    E3 (fun u _ t e => f (fU p u) (fZ beta x t) + e) =
      p * (logistic (beta * x) * f 1 1 + (1 - logistic (beta * x)) * f 1 0) +
      (1 - p) * (logistic (beta * x) * f 0 1 + (1 - logistic (beta * x)) * f 0 0) := by
  unfold E3
  simp only [gauss_shift]
  have i1 : ∀ u, (∫ t in (0 : ℝ)..1, f (fU p u) (fZ beta x t)) =
      (fun a => logistic (beta * x) * f a 1 + (1 - logistic (beta * x)) * f a 0) (bit p u) := fun u =>
    integral_bit _ (logistic_mem _).1.le (logistic_mem _).2.le (f (fU p u))
  simp only [i1, intervalIntegral.integral_const]
  have := integral_bit p hp.1 hp.2 fun a => logistic (beta * x) * f a 1 + (1 - logistic (beta * x)) * f a 0
  simpa using this

/-! ## C65: the back-door example -/

/-- **C65 (partial)** The mean and variance of `Z` and of `X`, the mean of `Y` and the causal effect returned by
`back_door_scm` are exact, for every value of the parameters that makes the probabilities valid.  Missing: the variance
of `Y` (`C65_backdoor_variance_violated`). -/
theorem C65_backdoor_moments_partial (p beta alpha : ℝ) (hp : 0 ≤ p ∧ p ≤ 1) (ha : 0 ≤ 1 / 2 + alpha ∧ 1 / 2 + alpha ≤ 1) :
    let s := backDoorStats p beta alpha
    E2 (fun u _ _ => bZ p u) = s.muZ ∧ V2 (fun u _ _ => bZ p u) = s.varZ ∧
    E2 (fun u v _ => bX p alpha u v) = s.muX ∧ V2 (fun u v _ => bX p alpha u v) = s.varX ∧
    E2 (fun u v e => bY p beta u (bX p alpha u v) e) = s.muY ∧
    E2 (fun u _ e => bY p beta u 1 e) - E2 (fun u _ e => bY p beta u 0 e) = s.tau := by
  have ez := E2_bits hp ha fun z _ => z
  have ex := E2_bits hp ha fun _ x => x
  refine ⟨?_, ?_, ?_, ?_, ?_, ?_⟩
  · rw [ez]; simp only [backDoorStats]; ring
  · unfold V2
    rw [ez]
    have := E2_bits hp ha fun z _ => (z - (p * ((1 / 2 + alpha) * 1 + (1 / 2 - alpha) * 1) + (1 - p) * (1 / 2 * 0 + 1 / 2 * 0))) ^ 2
    rw [this]; simp only [backDoorStats]; ring
  · rw [ex]; simp only [backDoorStats]; ring
  · unfold V2
    rw [ex]
    have := E2_bits hp ha fun _ x => (x - (p * ((1 / 2 + alpha) * 1 + (1 / 2 - alpha) * 0) + (1 - p) * (1 / 2 * 1 + 1 / 2 * 0))) ^ 2
    rw [this]; simp only [backDoorStats]; ring
  · have := E2_shift hp ha fun z x => 10 * x + beta * z
    unfold bY
    rw [this]; simp only [backDoorStats]; ring
  · have h1 := E2_shift hp ha fun z _ => 10 * 1 + beta * z
    have h0 := E2_shift hp ha fun z _ => 10 * 0 + beta * z
    unfold bY
    rw [h1, h0]; simp only [backDoorStats]; ring

/-- **C65 (violated)** The variance of `Y` returned by `back_door_scm` leaves out twice the covariance of the two terms,
`2 * tau * beta * alpha * p * (1 - p)`; it is wrong whenever both coefficients are non-zero. -/
theorem C65_backdoor_variance_violated (p beta alpha : ℝ) (hp : 0 ≤ p ∧ p ≤ 1) (ha : 0 ≤ 1 / 2 + alpha ∧ 1 / 2 + alpha ≤ 1) :
    V2 (fun u v e => bY p beta u (bX p alpha u v) e) =
      (backDoorStats p beta alpha).varY + 2 * 10 * beta * alpha * (p * (1 - p)) ∧
    (0 < p → p < 1 → alpha ≠ 0 → beta ≠ 0 →
      (backDoorStats p beta alpha).varY ≠ V2 fun u v e => bY p beta u (bX p alpha u v) e) := by
  have hV : V2 (fun u v e => bY p beta u (bX p alpha u v) e) =
      (backDoorStats p beta alpha).varY + 2 * 10 * beta * alpha * (p * (1 - p)) := by
    unfold V2
    rw [(C65_backdoor_moments_partial p beta alpha hp ha).2.2.2.2.1]
    have := E2_sq hp ha fun z x => 10 * x + beta * z - (backDoorStats p beta alpha).muY
    rw [show (fun u v e => (bY p beta u (bX p alpha u v) e - (backDoorStats p beta alpha).muY) ^ 2) =
      fun u v e => (10 * bX p alpha u v + beta * bZ p u - (backDoorStats p beta alpha).muY + e) ^ 2 by
        funext u v e; unfold bY; ring]
    rw [this]; simp only [backDoorStats]; ring
  refine ⟨hV, fun h0 h1 h2 h3 he => ?_⟩
  rw [hV] at he
  have : 2 * 10 * beta * alpha * (p * (1 - p)) ≠ 0 := by
    have : 1 - p ≠ 0 := by linarith
    positivity
  exact this (by linarith)

/-! ## C65: the front-door example -/

/-- **C65 (partial)** The means and variances of `U`, `X` and `Z`, the mean of `Y` and the causal effect returned by
`frontdoor_scm` are exact.  Missing: the variance of `Y` (`C65_frontdoor_variance_violated`). -/
theorem C65_frontdoor_moments_partial (p beta gamma alpha1 alpha2 : ℝ) (hp : 0 ≤ p ∧ p ≤ 1) :
    let s := frontDoorStats p beta gamma alpha1 alpha2
    E3 (fun u _ _ _ => fU p u) = s.muU ∧ V3 (fun u _ _ _ => fU p u) = s.varU ∧
    E3 (fun u v _ _ => fX p alpha1 u v) = s.muX ∧ V3 (fun u v _ _ => fX p alpha1 u v) = s.varX ∧
    E3 (fun u v t _ => fZ beta (fX p alpha1 u v) t) = s.muZ ∧ V3 (fun u v t _ => fZ beta (fX p alpha1 u v) t) = s.varZ ∧
    E3 (fun u v t e => fY p gamma alpha2 u (fZ beta (fX p alpha1 u v) t) e) = s.muY ∧
    E3 (fun u _ t e => fY p gamma alpha2 u (fZ beta 1 t) e) - E3 (fun u _ t e => fY p gamma alpha2 u (fZ beta 0 t) e) = s.tau := by
  have eu := E3_bits (alpha1 := alpha1) (beta := beta) hp fun u _ _ => u
  have ex := E3_bits (alpha1 := alpha1) (beta := beta) hp fun _ x _ => x
  have ez := E3_bits (alpha1 := alpha1) (beta := beta) hp fun _ _ z => z
  have hu : E3 (fun u _ _ _ => fU p u) = p := by rw [eu]; ring
  have hx : E3 (fun u v _ _ => fX p alpha1 u v) = p * logistic alpha1 + (1 - p) / 2 := by rw [ex]; ring
  have hz : E3 (fun u v t _ => fZ beta (fX p alpha1 u v) t) =
      (p * logistic alpha1 + (1 - p) / 2) * logistic beta + (1 - (p * logistic alpha1 + (1 - p) / 2)) / 2 := by rw [ez]; ring
  refine ⟨hu, ?_, hx, ?_, hz, ?_, ?_, ?_⟩
  · unfold V3
    rw [hu, E3_bits (alpha1 := alpha1) (beta := beta) hp fun u _ _ => (u - p) ^ 2]
    simp only [frontDoorStats]; ring
  · unfold V3
    rw [hx, E3_bits (alpha1 := alpha1) (beta := beta) hp fun _ x _ => (x - (p * logistic alpha1 + (1 - p) / 2)) ^ 2]
    simp only [frontDoorStats, g_eq]; ring
  · unfold V3
    rw [hz, E3_bits (alpha1 := alpha1) (beta := beta) hp fun _ _ z =>
      (z - ((p * logistic alpha1 + (1 - p) / 2) * logistic beta + (1 - (p * logistic alpha1 + (1 - p) / 2)) / 2)) ^ 2]
    simp only [frontDoorStats, g_eq]; ring
  · unfold fY
    rw [E3_shift hp fun u _ z => gamma * z + alpha2 * u]
    simp only [frontDoorStats, g_eq]; ring
  · unfold fY
    rw [E3_do hp 1 fun u z => gamma * z + alpha2 * u, E3_do hp 0 fun u z => gamma * z + alpha2 * u]
    simp only [frontDoorStats, g_eq, mul_zero, mul_one, logistic_zero]; ring

/-- **C65 (violated)** The variance of `Y` returned by `frontdoor_scm` leaves out the cross term
`2 * gamma * alpha_2 * P(Z = 1, U = 1)` of the second moment; it is wrong whenever both coefficients are non-zero. -/
theorem C65_frontdoor_variance_violated (p beta gamma alpha1 alpha2 : ℝ) (hp : 0 ≤ p ∧ p ≤ 1) :
    V3 (fun u v t e => fY p gamma alpha2 u (fZ beta (fX p alpha1 u v) t) e) =
      (frontDoorStats p beta gamma alpha1 alpha2).varY +
        2 * gamma * alpha2 * E3 (fun u v t _ => fU p u * fZ beta (fX p alpha1 u v) t) ∧
    (0 < p → gamma ≠ 0 → alpha2 ≠ 0 →
      (frontDoorStats p beta gamma alpha1 alpha2).varY ≠
        V3 fun u v t e => fY p gamma alpha2 u (fZ beta (fX p alpha1 u v) t) e) := by
  have hc := E3_bits (alpha1 := alpha1) (beta := beta) hp fun u _ z => u * z
  have hV : V3 (fun u v t e => fY p gamma alpha2 u (fZ beta (fX p alpha1 u v) t) e) =
      (frontDoorStats p beta gamma alpha1 alpha2).varY +
        2 * gamma * alpha2 * E3 (fun u v t _ => fU p u * fZ beta (fX p alpha1 u v) t) := by
    unfold V3
    rw [(C65_frontdoor_moments_partial p beta gamma alpha1 alpha2 hp).2.2.2.2.2.2.1]
    rw [show (fun u v t e => (fY p gamma alpha2 u (fZ beta (fX p alpha1 u v) t) e - (frontDoorStats p beta gamma alpha1 alpha2).muY) ^ 2) =
      fun u v t e => (gamma * fZ beta (fX p alpha1 u v) t + alpha2 * fU p u - (frontDoorStats p beta gamma alpha1 alpha2).muY + e) ^ 2 by
        funext u v t e; unfold fY; ring]
    rw [E3_sq hp fun u _ z => gamma * z + alpha2 * u - (frontDoorStats p beta gamma alpha1 alpha2).muY, hc]
    simp only [frontDoorStats, g_eq]; ring
  refine ⟨hV, fun h0 h1 h2 he => ?_⟩
  rw [hV, hc] at he
  obtain ⟨a0, a1⟩ := logistic_mem alpha1
  obtain ⟨b0, b1⟩ := logistic_mem beta
  have hpos : 0 < p * (logistic alpha1 * logistic beta + (1 - logistic alpha1) * (1 / 2)) := by
    have : 0 < 1 - logistic alpha1 := by linarith
    positivity
  have hne : 2 * gamma * alpha2 * (p * (logistic alpha1 * logistic beta + (1 - logistic alpha1) * (1 / 2))) ≠ 0 := by
    have := hpos.ne'
    positivity
  apply hne
  have := he
  ring_nf at this ⊢
  linarith

end Example
end Verif
