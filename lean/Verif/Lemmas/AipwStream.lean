import Verif.Lemmas.PopLogistic2
import Verif.Lemmas.Stream5
import Verif.Lemmas.Stream4
import Verif.Props.LinRegConsistent
import Verif.Props.Parameters

/-!
# AIPW parameters with ridge and logistic regression
-/

set_option linter.unusedSectionVars false
set_option linter.unusedSimpArgs false

namespace Verif
open MeasureTheory ProbabilityTheory Filter Topology Arm Param

/-! ## The score of a unit -/

section
variable {k : ℕ}

/-- the propensity used for a unit -/
noncomputable def clippedPropensity (κ : ℝ) (θ : Fin (k + 1) → ℝ) (p : (Fin k → ℝ) × ℝ × ℝ) : ℝ :=
  min (max (Real.sigmoid (∑ j, θ j * withOne p j)) κ) (1 - κ)

/-- the score of a unit -/
noncomputable def aipwPoint (κ : ℝ) (b θ : Fin (k + 1) → ℝ) (p : (Fin k → ℝ) × ℝ × ℝ) : ℝ :=
  b 0 + (p.2.2 - ∑ j, b j * regressor p j) * (p.2.1 / clippedPropensity κ θ p - (1 - p.2.1) / (1 - clippedPropensity κ θ p))

/-- the bound on the change of the score -/
noncomputable def aipwEnvelope (κ : ℝ) (b : Fin (k + 1) → ℝ) (p : (Fin k → ℝ) × ℝ × ℝ) : ℝ :=
  1 + (1 + ∑ j, |p.1 j|) / κ + |p.2.2 - ∑ j, b j * regressor p j| * (1 + ∑ j, |p.1 j|) / κ ^ 2

theorem linearValue_row (b : Fin (k + 1) → ℝ) (u : Obs ℝ) (x : ℝ) :
    linearValue b (x :: u.zv) = b 0 * x + ∑ j : Fin k, b j.succ * (u.point k).1 j := by
  unfold linearValue
  rw [Fin.sum_univ_succ]
  rfl

theorem logisticValue_point (θ : Fin (k + 1) → ℝ) (u : Obs ℝ) : logisticValue θ u.zv = Real.sigmoid (∑ j, θ j * withOne (u.point k) j) := by
  unfold logisticValue linearValue
  rw [Fin.sum_univ_succ]
  simp [withOne, Obs.point]

theorem regressor_dot (b : Fin (k + 1) → ℝ) (p : (Fin k → ℝ) × ℝ × ℝ) : ∑ j, b j * regressor p j = b 0 * p.2.1 + ∑ j : Fin k, b j.succ * p.1 j := by
  rw [Fin.sum_univ_succ]
  rfl

theorem aipwScore_point (κ : ℝ) (b θ : Fin (k + 1) → ℝ) (u : Obs ℝ) :
    aipwScore (fun x z => linearValue b (x :: z)) (fun z => min (max (logisticValue θ z) κ) (1 - κ)) u = aipwPoint κ b θ (u.point k) := by
  unfold aipwScore aipwPoint clippedPropensity
  dsimp only
  rw [logisticValue_point, linearValue_row, linearValue_row, linearValue_row, regressor_dot]
  have h1 : (u.point k).2.1 = u.xv := rfl
  have h2 : (u.point k).2.2 = u.yv := rfl
  rw [h1, h2]
  ring

theorem clipped_mem {κ : ℝ} (hκ : κ ≤ 1 / 2) (θ : Fin (k + 1) → ℝ) (p : (Fin k → ℝ) × ℝ × ℝ) : κ ≤ clippedPropensity κ θ p ∧ clippedPropensity κ θ p ≤ 1 - κ :=
  AIPW.clip_mem (by linarith)

theorem clipped_lipschitz (κ : ℝ) (θ t : Fin (k + 1) → ℝ) (p : (Fin k → ℝ) × ℝ × ℝ) :
    |clippedPropensity κ θ p - clippedPropensity κ t p| ≤ ‖θ - t‖ * (1 + ∑ j, |p.1 j|) := by
  have h1 : |clippedPropensity κ θ p - clippedPropensity κ t p| ≤ |Real.sigmoid (∑ j, θ j * withOne p j) - Real.sigmoid (∑ j, t j * withOne p j)| := by
    unfold clippedPropensity
    refine (abs_min_sub_min_le_max _ _ _ _).trans ?_
    rw [sub_self, abs_zero, max_eq_left (abs_nonneg _)]
    refine (abs_max_sub_max_le_max _ _ _ _).trans ?_
    rw [sub_self, abs_zero, max_eq_left (abs_nonneg _)]
  refine h1.trans ((sigmoid_lipschitz _ _).trans ((dot_lipschitz θ t (withOne p)).trans (le_of_eq ?_)))
  rw [Fin.sum_univ_succ]
  simp [withOne]

/-- the score is Lipschitz in the coefficients -/
theorem aipwPoint_lipschitz {κ : ℝ} (h0 : 0 < κ) (h1 : κ ≤ 1 / 2) (b c θ t : Fin (k + 1) → ℝ) (p : (Fin k → ℝ) × ℝ × ℝ) (hp : p.2.1 = 0 ∨ p.2.1 = 1) :
    |aipwPoint κ c t p - aipwPoint κ b θ p| ≤ (‖c - b‖ + ‖t - θ‖) * aipwEnvelope κ b p := by
  set S := 1 + ∑ j, |p.1 j| with hS
  have hS1 : 1 ≤ S := by
    have : 0 ≤ ∑ j, |p.1 j| := Finset.sum_nonneg fun j _ => abs_nonneg _
    linarith
  have hmu : |∑ j, c j * regressor p j - ∑ j, b j * regressor p j| ≤ ‖c - b‖ * S := by
    refine (dot_lipschitz c b (regressor p)).trans (mul_le_mul_of_nonneg_left ?_ (norm_nonneg _))
    rw [Fin.sum_univ_succ]
    simp only [regressor, Fin.cons_zero, Fin.cons_succ]
    have : |p.2.1| ≤ 1 := by rcases hp with h | h <;> rw [h] <;> norm_num
    linarith
  have he := clipped_lipschitz κ t θ p
  obtain ⟨e1, e2⟩ := clipped_mem h1 θ p
  obtain ⟨e3, e4⟩ := clipped_mem h1 t p
  have hb0 : |c 0 - b 0| ≤ ‖c - b‖ := norm_le_pi_norm (c - b) 0
  unfold aipwPoint aipwEnvelope
  rw [← hS]
  generalize clippedPropensity κ θ p = e at *
  generalize clippedPropensity κ t p = e' at *
  generalize ∑ j, c j * regressor p j = μ' at *
  generalize ∑ j, b j * regressor p j = μ at *
  set h := p.2.1 / e - (1 - p.2.1) / (1 - e) with hh
  set h' := p.2.1 / e' - (1 - p.2.1) / (1 - e') with hh'
  have hκ' : |h'| ≤ 1 / κ := by
    rcases hp with hx | hx
    · rw [hh', hx, zero_div, zero_sub, sub_zero, abs_neg, abs_of_pos (by apply div_pos one_pos; linarith)]
      exact one_div_le_one_div_of_le h0 (by linarith)
    · rw [hh', hx, sub_self, zero_div, sub_zero, abs_of_pos (by apply div_pos one_pos; linarith)]
      exact one_div_le_one_div_of_le h0 e3
  have hd : |h' - h| ≤ |e' - e| / κ ^ 2 := by
    rcases hp with hx | hx
    · have : h' - h = (e - e') / ((1 - e') * (1 - e)) := by
        rw [hh', hh, hx]
        have : 1 - e ≠ 0 := by linarith
        have : 1 - e' ≠ 0 := by linarith
        field_simp
        ring
      rw [this, abs_div, abs_sub_comm e e']
      refine div_le_div_of_nonneg_left (abs_nonneg _) (by positivity) ?_
      rw [abs_of_pos (mul_pos (by linarith) (by linarith)), sq]
      exact mul_le_mul (by linarith) (by linarith) h0.le (by linarith)
    · have : h' - h = (e - e') / (e' * e) := by
        rw [hh', hh, hx]
        have : e ≠ 0 := by linarith
        have : e' ≠ 0 := by linarith
        field_simp
        ring
      rw [this, abs_div, abs_sub_comm e e']
      refine div_le_div_of_nonneg_left (abs_nonneg _) (by positivity) ?_
      rw [abs_of_pos (mul_pos (by linarith) (by linarith)), sq]
      exact mul_le_mul e3 e1 h0.le (by linarith)
  have e : c 0 + (p.2.2 - μ') * h' - (b 0 + (p.2.2 - μ) * h) = (c 0 - b 0) + (-(μ' - μ) * h' + (p.2.2 - μ) * (h' - h)) := by ring
  rw [e]
  have t1 : |-(μ' - μ) * h'| ≤ ‖c - b‖ * S * (1 / κ) := by
    rw [abs_mul, abs_neg]
    exact mul_le_mul hmu hκ' (abs_nonneg _) (by positivity)
  have t2 : |(p.2.2 - μ) * (h' - h)| ≤ |p.2.2 - μ| * (‖t - θ‖ * S / κ ^ 2) := by
    rw [abs_mul]
    refine mul_le_mul_of_nonneg_left (hd.trans ?_) (abs_nonneg _)
    exact div_le_div_of_nonneg_right he (by positivity)
  have t3 := abs_add_le (c 0 - b 0) (-(μ' - μ) * h' + (p.2.2 - μ) * (h' - h))
  have t4 := abs_add_le (-(μ' - μ) * h') ((p.2.2 - μ) * (h' - h))
  have hA := norm_nonneg (c - b)
  have hB := norm_nonneg (t - θ)
  have r1 : 0 ≤ S / κ := by positivity
  have r2 : 0 ≤ |p.2.2 - μ| * S / κ ^ 2 := by positivity
  have q1 : ‖c - b‖ * S * (1 / κ) = ‖c - b‖ * (S / κ) := by ring
  have q2 : |p.2.2 - μ| * (‖t - θ‖ * S / κ ^ 2) = ‖t - θ‖ * (|p.2.2 - μ| * S / κ ^ 2) := by ring
  rw [q1] at t1
  rw [q2] at t2
  nlinarith [mul_nonneg hA r2, mul_nonneg hB r1]

end

/-! ## Fitting -/

namespace AIPW
variable {M Q : Type} {k : ℕ} {R : Predictor M ℝ} {C : Predictor Q ℝ} {SR : M → Prop} {SC : Q → Prop} {lam κ : ℝ} {μ : ℤ}

/-- the models of the parameter have coefficients `b` and `θ`, which minimise the objectives on the units `us` -/
structure FittedOn (R : Predictor M ℝ) (C : Predictor Q ℝ) (k : ℕ) (lam : ℝ) (us : List (Obs ℝ)) (e : AIPW M Q ℝ) (b θ : Fin (k + 1) → ℝ) : Prop where
  fit : e.hasBeenFit = true
  response : ∀ r, r.length = k + 1 → R.predict e.response r = linearValue b r
  propensity : ∀ r, r.length = k → C.predict e.propensity r = logisticValue θ r
  ridge : ∀ c : Fin (k + 1) → ℝ, ridgeLoss us lam b ≤ ridgeLoss us lam c
  logistic : ∀ t : Fin (k + 1) → ℝ,
    (us.map fun u => logLoss u.xv (∑ j, θ j * withOne (u.point k) j)).sum + 1 / 2 * ∑ j : Fin k, θ j.succ ^ 2 ≤
      (us.map fun u => logLoss u.xv (∑ j, t j * withOne (u.point k) j)).sum + 1 / 2 * ∑ j : Fin k, t j.succ ^ 2

theorem ridgeObjective_units (us : List (Obs ℝ)) (b : Fin (k + 1) → ℝ) :
    ridgeObjective lam (us.map fun u => u.xv :: u.zv) (us.map Obs.yv) b = ridgeLoss us lam b := by
  unfold ridgeObjective ridgeLoss
  rw [List.zip_map', List.map_map]
  simp only [Function.comp_def, linearValue_row, Obs.point]

theorem logisticObjective_units (us : List (Obs ℝ)) (θ : Fin (k + 1) → ℝ) :
    logisticObjective (us.map Obs.zv) (us.map Obs.xv) θ =
      (us.map fun u => logLoss u.xv (∑ j, θ j * withOne (u.point k) j)).sum + 1 / 2 * ∑ j : Fin k, θ j.succ ^ 2 := by
  unfold logisticObjective
  rw [List.zip_map', List.map_map]
  simp only [Function.comp_def, logisticValue_point, crossEntropy_sigmoid]

theorem zv_length {u : Obs ℝ} (h : u.z.length = k) : u.zv.length = k := by
  simpa [Obs.zv] using h

theorem fit_regular (hk0 : 0 < k) (hR : R.IsRidge SR lam) (hC : C.IsLogistic SC) (hμ : 1 ≤ μ) {e : AIPW M Q ℝ} (he : Regular k SR SC μ κ e) {us : List (Obs ℝ)} (hne : us ≠ [])
    (hbin : ∀ u ∈ us, u.Binary) (hlen : ∀ u ∈ us, u.z.length = k) :
    ∃ e', fit R C (Obs.dataset k us) e = (.ok (), e') ∧ Regular k SR SC μ κ e' ∧
      (μ ≤ Obs.treated us ∧ μ ≤ Obs.control us → ∃ b θ, FittedOn R C k lam us e' b θ) ∧
      (¬ (μ ≤ Obs.treated us ∧ μ ≤ Obs.control us) → e'.hasBeenFit = e.hasBeenFit ∧ e'.response = e.response ∧ e'.propensity = e.propensity) := by
  have hk := he.covDim
  subst hk
  by_cases h : μ ≤ Obs.treated us ∧ μ ≤ Obs.control us
  · have htf : tooFew e.minUnits (Obs.dataset e.covDim us).nUnits (us.map Obs.x) = false := by
      rw [← Bool.not_eq_true, Obs.tooFew_iff us hbin, he.minUnits, not_not]
      exact h
    obtain ⟨m', b, a1, a2, a3, a4⟩ := hR e.response (e.covDim + 1) (us.map fun u => u.xv :: u.zv) (us.map Obs.yv) he.response (by omega) (by simpa using hne) (by simp) (by
      intro r hr
      obtain ⟨u, hu, rfl⟩ := List.mem_map.1 hr
      rw [List.length_cons, zv_length (hlen u hu)])
    have h0 : (0 : ℝ) ∈ us.map Obs.xv := by
      have : 0 < Obs.control us := by have := h.2; omega
      obtain ⟨u, hu, hx⟩ := List.countP_pos_iff.1 this
      exact List.mem_map.2 ⟨u, hu, by simpa using hx⟩
    have h1 : (1 : ℝ) ∈ us.map Obs.xv := by
      have : 0 < Obs.treated us := by have := h.1; omega
      obtain ⟨u, hu, hx⟩ := List.countP_pos_iff.1 this
      exact List.mem_map.2 ⟨u, hu, by simpa using hx⟩
    obtain ⟨p', θ, c1, c2, c3, c4⟩ := hC e.propensity e.covDim (us.map Obs.zv) (us.map Obs.xv) he.propensity hk0 (by simp) (by
      intro r hr
      obtain ⟨u, hu, rfl⟩ := List.mem_map.1 hr
      exact zv_length (hlen u hu)) (by
      intro y hy
      obtain ⟨u, hu, rfl⟩ := List.mem_map.1 hy
      exact hbin u hu) h0 h1
    rw [fit_enough R C us e htf]
    have i1 : ((us.map fun u => u.xv :: u.zv).isEmpty || decide ((us.map fun u => u.xv :: u.zv).length ≠ (us.map Obs.yv).length)) = false := by
      simpa using hne
    have i2 : ((us.map Obs.zv).isEmpty || decide ((us.map Obs.zv).length ≠ (us.map Obs.xv).length)) = false := by
      simpa using hne
    unfold Predictor.fitRows
    rw [i1, i2]
    simp only [Bool.false_eq_true, if_false, a1, c1]
    refine ⟨_, rfl, ⟨rfl, a2, c2, he.minUnits, he.minOverlap⟩, fun _ => ⟨b, θ, rfl, a3, c3, ?_, ?_⟩, fun h' => absurd h h'⟩
    · simpa only [ridgeObjective_units] using a4
    · simpa only [logisticObjective_units] using c4
  · rw [fit_few R C us e ((Obs.tooFew_iff us hbin _ _).mpr (by rw [he.minUnits]; exact h))]
    exact ⟨_, rfl, ⟨rfl, he.response, he.propensity, he.minUnits, he.minOverlap⟩, fun h' => absurd h' h, fun _ => ⟨rfl, rfl, rfl⟩⟩

theorem score_fitted {us vs : List (Obs ℝ)} {e : AIPW M Q ℝ} {b θ : Fin (k + 1) → ℝ} (he : Regular k SR SC μ κ e) (hf : FittedOn R C k lam us e b θ)
    (h1 : 1 / 10 ^ 15 ≤ κ) (h2 : κ ≤ 1 / 2) (hne : vs ≠ []) (hlen : ∀ u ∈ vs, u.z.length = k) :
    score R C e (Obs.dataset k vs) = .ok ((vs.map fun u => aipwPoint κ b θ (u.point k)).map Fl.fin) := by
  have hk := he.covDim
  subst hk
  rw [score_dataset R C e vs hf.fit hne (by rw [he.minOverlap]; exact h1) (by rw [he.minOverlap]; exact h2), List.map_map]
  congr 1
  refine List.map_congr_left fun u hu => ?_
  rw [Function.comp_apply, ← aipwScore_point]
  have hz := zv_length (hlen u hu)
  unfold aipwScore eHat
  dsimp only
  rw [hf.response _ (by rw [List.length_cons, hz]), hf.response _ (by rw [List.length_cons, hz]), hf.response _ (by rw [List.length_cons, hz]), hf.propensity _ hz, he.minOverlap]
  rfl

end AIPW
end Verif
