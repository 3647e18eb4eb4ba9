import Verif.Spec.Sklearn
import Verif.Lemmas.Logistic
import Verif.Lemmas.MEstimation
import Mathlib.Analysis.Normed.Group.Bounded

/-!
# The objectives of sklearn have minimisers
-/

set_option linter.unusedSectionVars false
set_option linter.unusedSimpArgs false

namespace Verif
open Filter Topology

section
variable {ι : Type} {d : ℕ}

theorem listSum_continuous (l : List ι) (f : ι → (Fin d → ℝ) → ℝ) (hf : ∀ i, Continuous (f i)) : Continuous fun b => (l.map fun i => f i b).sum := by
  induction l with
  | nil => simpa using continuous_const
  | cons a l ih =>
    simp only [List.map_cons, List.sum_cons]
    exact (hf a).add ih

theorem listSum_convex (l : List ι) (f : ι → (Fin d → ℝ) → ℝ) (hf : ∀ i, ConvexOn ℝ Set.univ (f i)) :
    ConvexOn ℝ Set.univ fun b => (l.map fun i => f i b).sum := by
  induction l with
  | nil => simpa using convexOn_const (0 : ℝ) (convex_univ (𝕜 := ℝ) (E := Fin d → ℝ))
  | cons a l ih =>
    simp only [List.map_cons, List.sum_cons]
    exact (hf a).add ih

theorem linearValue_continuous (r : List ℝ) : Continuous fun b : Fin d → ℝ => linearValue b r := by
  unfold linearValue
  fun_prop

/-- the objective of ridge regression has a minimiser -/
theorem exists_ridge {alpha : ℝ} (ha : 0 < alpha) (rows : List (List ℝ)) (ys : List ℝ) :
    ∃ b : Fin d → ℝ, ∀ c : Fin d → ℝ, ridgeObjective alpha rows ys b ≤ ridgeObjective alpha rows ys c := by
  have hc : Continuous fun b : Fin d → ℝ => ridgeObjective alpha rows ys b := by
    unfold ridgeObjective
    refine (listSum_continuous _ _ fun q => ?_).add (by fun_prop)
    exact (continuous_const.sub (linearValue_continuous q.1)).pow 2
  refine hc.exists_forall_le ?_
  have h1 : Tendsto (fun b : Fin d → ℝ => alpha * ‖b‖ ^ 2) (cocompact _) atTop :=
    ((tendsto_pow_atTop (by norm_num)).comp (tendsto_norm_cocompact_atTop (E := Fin d → ℝ))).const_mul_atTop ha
  refine tendsto_atTop_mono (fun b => ?_) h1
  have h2 : ‖b‖ ^ 2 ≤ ∑ j, b j ^ 2 := by
    have h3 : ‖b‖ ≤ Real.sqrt (∑ j, b j ^ 2) := by
      refine (pi_norm_le_iff_of_nonneg (Real.sqrt_nonneg _)).2 fun j => ?_
      rw [Real.norm_eq_abs]
      refine Real.abs_le_sqrt (Finset.single_le_sum (f := fun j => b j ^ 2) (fun i _ => sq_nonneg _) (Finset.mem_univ j))
    calc ‖b‖ ^ 2 ≤ Real.sqrt (∑ j, b j ^ 2) ^ 2 := pow_le_pow_left₀ (norm_nonneg _) h3 2
      _ = _ := Real.sq_sqrt (Finset.sum_nonneg fun j _ => sq_nonneg _)
  have h4 : 0 ≤ ((rows.zip ys).map fun q => (q.2 - linearValue b q.1) ^ 2).sum := List.sum_nonneg (by
    intro x hx
    obtain ⟨q, -, rfl⟩ := List.mem_map.1 hx
    exact sq_nonneg _)
  unfold ridgeObjective
  nlinarith [mul_le_mul_of_nonneg_left h2 ha.le]

theorem logisticValue_dot (θ : Fin (d + 1) → ℝ) (r : List ℝ) :
    θ 0 + linearValue (fun j => θ j.succ) r = ∑ j, θ j * (Fin.cons 1 fun j : Fin d => r.getD j 0 : Fin (d + 1) → ℝ) j := by
  rw [Fin.sum_univ_succ]
  simp [linearValue]

theorem logisticObjective_eq (rows : List (List ℝ)) (ys : List ℝ) (θ : Fin (d + 1) → ℝ) : logisticObjective rows ys θ =
    ((rows.zip ys).map fun q => logLoss q.2 (∑ j, θ j * (Fin.cons 1 fun j : Fin d => q.1.getD j 0 : Fin (d + 1) → ℝ) j)).sum + 1 / 2 * ∑ j : Fin d, θ j.succ ^ 2 := by
  unfold logisticObjective logisticValue
  simp only [crossEntropy_sigmoid, logisticValue_dot]

theorem halfsq_convex : ConvexOn ℝ Set.univ fun θ : Fin (d + 1) → ℝ => 1 / 2 * ∑ j : Fin d, θ j.succ ^ 2 := by
  refine ⟨convex_univ, fun θ _ t _ a b ha hb hab => ?_⟩
  simp only [smul_eq_mul]
  have : ∑ j : Fin d, (a • θ + b • t) j.succ ^ 2 ≤ a * ∑ j : Fin d, θ j.succ ^ 2 + b * ∑ j : Fin d, t j.succ ^ 2 := by
    rw [Finset.mul_sum, Finset.mul_sum, ← Finset.sum_add_distrib]
    refine Finset.sum_le_sum fun j _ => ?_
    simp only [Pi.add_apply, Pi.smul_apply, smul_eq_mul]
    have hb' : b = 1 - a := by linarith
    subst hb'
    nlinarith [mul_nonneg ha hb, sq_nonneg (θ j.succ - t j.succ), mul_nonneg (mul_nonneg ha hb) (sq_nonneg (θ j.succ - t j.succ))]
  linarith

/-- the objective of logistic regression has a minimiser when both labels occur -/
theorem exists_logistic {rows : List (List ℝ)} {ys : List ℝ} (hlen : rows.length = ys.length) (hbin : ∀ y ∈ ys, y = 0 ∨ y = 1) (h0 : (0 : ℝ) ∈ ys) (h1 : (1 : ℝ) ∈ ys) :
    ∃ θ : Fin (d + 1) → ℝ, ∀ t : Fin (d + 1) → ℝ, logisticObjective rows ys θ ≤ logisticObjective rows ys t := by
  simp only [logisticObjective_eq]
  have hpos : ∀ (θ : Fin (d + 1) → ℝ), ∀ q ∈ rows.zip ys, 0 ≤ logLoss q.2 (∑ j, θ j * (Fin.cons 1 fun j : Fin d => q.1.getD j 0 : Fin (d + 1) → ℝ) j) := by
    intro θ q hq
    have := hbin _ (List.of_mem_zip hq).2
    have hq2 : 0 ≤ q.2 ∧ q.2 ≤ 1 := by rcases this with h | h <;> rw [h] <;> norm_num
    exact logLoss_nonneg hq2.1 hq2.2 _
  have hmem : ∀ y ∈ ys, ∃ r, (r, y) ∈ rows.zip ys := by
    intro y hy
    obtain ⟨i, hi, rfl⟩ := List.mem_iff_getElem.1 hy
    refine ⟨rows[i]'(by omega), ?_⟩
    rw [List.mem_iff_getElem]
    exact ⟨i, by rw [List.length_zip]; omega, by simp⟩
  refine exists_argmin ?_ ?_ (0 : Fin (d + 1) → ℝ) fun v hv => ?_
  · exact (listSum_convex _ _ fun q => logLoss_dot_convex _ _).add halfsq_convex
  · refine (listSum_continuous _ _ fun q => ?_).add (by fun_prop)
    exact (differentiable_logLoss q.2).continuous.comp (by fun_prop)
  simp only [zero_add]
  set G0 : ℝ := ((rows.zip ys).map fun q => logLoss q.2 (∑ j, (0 : Fin (d + 1) → ℝ) j * (Fin.cons 1 fun j : Fin d => q.1.getD j 0 : Fin (d + 1) → ℝ) j)).sum +
    1 / 2 * ∑ j : Fin d, (0 : Fin (d + 1) → ℝ) j.succ ^ 2 with hG0
  have hG0n : 0 ≤ G0 := by
    rw [hG0]
    have : 0 ≤ ((rows.zip ys).map fun q => logLoss q.2 (∑ j, (0 : Fin (d + 1) → ℝ) j * (Fin.cons 1 fun j : Fin d => q.1.getD j 0 : Fin (d + 1) → ℝ) j)).sum :=
      List.sum_nonneg (by
        intro x hx
        obtain ⟨q, hq, rfl⟩ := List.mem_map.1 hx
        exact hpos _ q hq)
    have h2 : 0 ≤ ∑ j : Fin d, (0 : Fin (d + 1) → ℝ) j.succ ^ 2 := Finset.sum_nonneg fun j _ => sq_nonneg _
    linarith
  by_cases hs : ∃ j : Fin d, v j.succ ≠ 0
  · obtain ⟨j, hj⟩ := hs
    set a : ℝ := v j.succ ^ 2 with ha
    have ha0 : 0 < a := by positivity
    refine ⟨1 + 2 * G0 / a, by positivity, ?_⟩
    have hb : 0 ≤ 2 * G0 / a := by positivity
    have h3 : 0 ≤ ((rows.zip ys).map fun q => logLoss q.2 (∑ j, ((1 + 2 * G0 / a) • v) j * (Fin.cons 1 fun j : Fin d => q.1.getD j 0 : Fin (d + 1) → ℝ) j)).sum :=
      List.sum_nonneg (by
        intro x hx
        obtain ⟨q, hq, rfl⟩ := List.mem_map.1 hx
        exact hpos _ q hq)
    have h4 : ((1 + 2 * G0 / a) • v) j.succ ^ 2 ≤ ∑ j : Fin d, ((1 + 2 * G0 / a) • v) j.succ ^ 2 :=
      Finset.single_le_sum (f := fun j : Fin d => ((1 + 2 * G0 / a) • v) j.succ ^ 2) (fun i _ => sq_nonneg _) (Finset.mem_univ j)
    have h5 : ((1 + 2 * G0 / a) • v) j.succ ^ 2 = (1 + 2 * G0 / a) ^ 2 * a := by
      simp only [Pi.smul_apply, smul_eq_mul, ha]; ring
    have h6 : 2 * G0 / a * a = 2 * G0 := div_mul_cancel₀ _ ha0.ne'
    have h7 : (1 + 2 * G0 / a) ^ 2 * a = a + 2 * (2 * G0) + (2 * G0 / a) * (2 * G0) := by
      rw [show (1 + 2 * G0 / a) ^ 2 * a = a + 2 * (2 * G0 / a * a) + 2 * G0 / a * (2 * G0 / a * a) by ring, h6]
    have h8 : 0 ≤ (2 * G0 / a) * (2 * G0) := by positivity
    linarith
  · push Not at hs
    have hv0 : v 0 ≠ 0 := by
      intro h
      apply hv
      funext j
      refine Fin.cases h (fun i => hs i) j
    -- one of the labels has growing loss
    have key : ∃ y ∈ ys, ∀ s : ℝ, 0 < s → s * |v 0| ≤ logLoss y (s * v 0) := by
      rcases lt_or_gt_of_ne hv0 with h | h
      · refine ⟨1, h1, fun s hs0 => ?_⟩
        rcases logLoss_ge 1 (s * v 0) with h' | h'
        · rw [if_pos rfl] at h'
          rw [abs_of_neg h]
          linarith
        · exact absurd rfl h'.2
      · refine ⟨0, h0, fun s hs0 => ?_⟩
        rcases logLoss_ge 0 (s * v 0) with h' | h'
        · rw [if_neg (by norm_num)] at h'
          rwa [abs_of_pos h]
        · exact absurd rfl h'.1
    obtain ⟨y, hy, hgrow⟩ := key
    obtain ⟨r, hr⟩ := hmem y hy
    have hva : 0 < |v 0| := abs_pos.2 hv0
    refine ⟨(G0 + 1) / |v 0|, by positivity, ?_⟩
    set s : ℝ := (G0 + 1) / |v 0| with hs'
    have h2 := hgrow s (by positivity)
    have h3 : s * |v 0| = G0 + 1 := div_mul_cancel₀ _ hva.ne'
    have h4 : logLoss y (∑ j, (s • v) j * (Fin.cons 1 fun j : Fin d => r.getD j 0 : Fin (d + 1) → ℝ) j) = logLoss y (s * v 0) := by
      rw [Fin.sum_univ_succ]
      simp [hs]
    have h5 := List.single_le_sum (l := (rows.zip ys).map fun q => logLoss q.2 (∑ j, (s • v) j * (Fin.cons 1 fun j : Fin d => q.1.getD j 0 : Fin (d + 1) → ℝ) j)) (by
        intro x hx
        obtain ⟨q, hq, rfl⟩ := List.mem_map.1 hx
        exact hpos _ q hq) _ (List.mem_map.2 ⟨(r, y), hr, rfl⟩)
    have h6 : 0 ≤ ∑ j : Fin d, (s • v) j.succ ^ 2 := Finset.sum_nonneg fun j _ => sq_nonneg _
    simp only [h4] at h5
    linarith

end

/-- a ridge regression -/
noncomputable def idealRidge (alpha : ℝ) : Predictor (List ℝ → ℝ) ℝ where
  fit _ rows ys := (.ok (), linearValue (Classical.epsilon fun b : Fin (rows.headD []).length → ℝ => ∀ c : Fin (rows.headD []).length → ℝ, ridgeObjective alpha rows ys b ≤ ridgeObjective alpha rows ys c))
  predict f r := f r
  clone _ := fun _ => 0

theorem idealRidge_isRidge {alpha : ℝ} (ha : 0 < alpha) : (idealRidge alpha).IsRidge (fun _ => True) alpha := by
  intro m d rows ys _ _ hne _ hd
  have hh : (rows.headD []).length = d := by
    cases rows with
    | nil => exact absurd rfl hne
    | cons r rows => exact hd r (by simp)
  subst hh
  exact ⟨_, _, rfl, trivial, fun r _ => rfl, Classical.epsilon_spec (exists_ridge ha rows ys)⟩

/-- a logistic regression -/
noncomputable def idealLogistic : Predictor (List ℝ → ℝ) ℝ where
  fit _ rows ys := (.ok (), logisticValue (Classical.epsilon fun b : Fin ((rows.headD []).length + 1) → ℝ => ∀ c : Fin ((rows.headD []).length + 1) → ℝ, logisticObjective rows ys b ≤ logisticObjective rows ys c))
  predict f r := f r
  clone _ := fun _ => 0

theorem idealLogistic_isLogistic : idealLogistic.IsLogistic fun _ => True := by
  intro m d rows ys _ _ hlen hd hbin h0 h1
  have hh : (rows.headD []).length = d := by
    cases rows with
    | nil => exact absurd h0 (by rw [List.eq_nil_of_length_eq_zero hlen.symm]; simp)
    | cons r rows => exact hd r (by simp)
  subst hh
  exact ⟨_, _, rfl, trivial, fun r _ => rfl, Classical.epsilon_spec (exists_logistic hlen hbin h0 h1)⟩

end Verif
