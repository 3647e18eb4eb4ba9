import Verif.Lemmas.PopLogistic

/-!
# Logistic regression of the exposure in a population
-/

set_option linter.unusedSectionVars false

namespace Verif
open MeasureTheory Set Filter Topology

variable {Ω : Type} [MeasurableSpace Ω] {P : Measure Ω} [IsProbabilityMeasure P] {k : ℕ} {V : Ω → (Fin k → ℝ) × ℝ × ℝ}

theorem logisticRegression_iff (θ : Fin (k + 1) → ℝ) : LogisticRegression P V θ ↔
    ∀ t, t ≠ θ → popLoss P (fun ω => (V ω).2.1) (fun ω => withOne (V ω)) θ < popLoss P (fun ω => (V ω).2.1) (fun ω => withOne (V ω)) t := by
  unfold LogisticRegression popLoss
  simp only [crossEntropy_sigmoid]

theorem withOne_integrable (hz : ∀ j, Integrable (fun ω => (V ω).1 j) P) (j : Fin (k + 1)) : Integrable (fun ω => withOne (V ω) j) P := by
  refine Fin.cases ?_ (fun i => ?_) j
  · simp only [withOne, Fin.cons_zero]; exact integrable_const 1
  · simp only [withOne, Fin.cons_succ]; exact hz i

theorem withOne_measurable (j : Fin (k + 1)) : Measurable fun p : (Fin k → ℝ) × ℝ × ℝ => withOne p j := by
  refine Fin.cases ?_ (fun i => ?_) j
  · simp only [withOne, Fin.cons_zero]; fun_prop
  · simp only [withOne, Fin.cons_succ]; fun_prop

theorem binary_bounds {x : Ω → ℝ} (hbin : ∀ᵐ ω ∂P, x ω = 0 ∨ x ω = 1) : ∀ᵐ ω ∂P, 0 ≤ x ω ∧ x ω ≤ 1 := by
  filter_upwards [hbin] with ω h
  rcases h with h | h <;> rw [h] <;> norm_num

theorem NotSeparable.nondegenerate (h : NotSeparable P V) : Nondegenerate P fun ω => withOne (V ω) := by
  intro v hv
  by_contra hne
  refine h v hne ?_
  filter_upwards [hv] with ω hω
  exact ⟨fun _ => hω.ge, fun _ => hω.le⟩

/-- a population in which no hyperplane separates the classes has a logistic regression -/
theorem NotSeparable.exists_logistic (h : NotSeparable P V) (hV : AEMeasurable V P) (hbin : ∀ᵐ ω ∂P, (V ω).2.1 = 0 ∨ (V ω).2.1 = 1)
    (hz : ∀ j, Integrable (fun ω => (V ω).1 j) P) : ∃ θ, LogisticRegression P V θ := by
  have hx : AEMeasurable (fun ω => (V ω).2.1) P := hV.snd.fst
  obtain ⟨θ, hθ⟩ := popLoss_exists hx hbin (withOne_integrable hz) h
  exact ⟨θ, (logisticRegression_iff θ).2 fun t ht => popLoss_unique hx (binary_bounds hbin) (withOne_integrable hz) h.nondegenerate hθ t ht⟩

theorem logLoss_antitone : Antitone (logLoss 1) := by
  refine antitone_of_deriv_nonpos (differentiable_logLoss 1) fun η => ?_
  rw [deriv_logLoss]
  exact sub_nonpos.2 (Real.sigmoid_le_one η)

theorem logLoss_monotone : Monotone (logLoss 0) := by
  refine monotone_of_deriv_nonneg (differentiable_logLoss 0) fun η => ?_
  rw [deriv_logLoss]
  simpa using Real.sigmoid_nonneg η

theorem dot_shift (θ : Fin (k + 1) → ℝ) (c : ℝ) (p : (Fin k → ℝ) × ℝ × ℝ) :
    ∑ j, (θ + (fun j => if j = 0 then c else 0 : Fin (k + 1) → ℝ)) j * withOne p j = ∑ j, θ j * withOne p j + c := by
  simp only [Pi.add_apply, add_mul, Finset.sum_add_distrib]
  congr 1
  rw [Finset.sum_eq_single 0]
  · simp [withOne]
  · intro j _ hj; simp [hj]
  · simp

/-- both classes have positive probability -/
theorem LogisticRegression.both {θ : Fin (k + 1) → ℝ} (h : LogisticRegression P V θ) (hV : AEMeasurable V P) (hbin : ∀ᵐ ω ∂P, (V ω).2.1 = 0 ∨ (V ω).2.1 = 1)
    (hz : ∀ j, Integrable (fun ω => (V ω).1 j) P) : 0 < ∫ ω, (V ω).2.1 ∂P ∧ ∫ ω, (V ω).2.1 ∂P < 1 := by
  have hx : AEMeasurable (fun ω => (V ω).2.1) P := hV.snd.fst
  have hb := binary_bounds hbin
  have hxi : Integrable (fun ω => (V ω).2.1) P := by
    refine Integrable.mono' (integrable_const 1) hx.aestronglyMeasurable ?_
    filter_upwards [hb] with ω h'
    rw [Real.norm_of_nonneg h'.1]
    exact h'.2
  have i := fun θ => logLoss_integrable hx hb (logit_integrable (withOne_integrable hz) θ)
  rw [logisticRegression_iff] at h
  have hshift : ∀ c : ℝ, c ≠ 0 → (θ + (fun j => if j = 0 then c else 0 : Fin (k + 1) → ℝ)) ≠ θ := by
    intro c hc e
    have := congrFun e 0
    simp [hc] at this
  constructor
  · refine lt_of_le_of_ne (integral_nonneg_of_ae (hb.mono fun ω h => h.1)) fun h0 => ?_
    have h1 := (integral_eq_zero_iff_of_nonneg_ae (hb.mono fun ω h => h.1) hxi).1 h0.symm
    refine absurd (h _ (hshift (-1) (by norm_num))) (not_lt.2 ?_)
    refine integral_mono_ae (i _) (i _) ?_
    filter_upwards [h1] with ω hω
    rw [dot_shift, show (V ω).2.1 = 0 from hω]
    exact logLoss_monotone (by linarith)
  · refine lt_of_le_of_ne (by simpa using integral_mono_ae hxi (integrable_const 1) (hb.mono fun ω h => h.2)) fun h0 => ?_
    have h1 : (fun ω => 1 - (V ω).2.1) =ᵐ[P] 0 := (integral_eq_zero_iff_of_nonneg_ae (hb.mono fun ω h => sub_nonneg.2 h.2) ((integrable_const 1).sub hxi)).1 (by
      rw [integral_sub (integrable_const 1) hxi, h0]; simp)
    refine absurd (h _ (hshift 1 (by norm_num))) (not_lt.2 ?_)
    refine integral_mono_ae (i _) (i _) ?_
    filter_upwards [h1] with ω hω
    rw [dot_shift, show (V ω).2.1 = 1 from by simp only [Pi.zero_apply] at hω; linarith]
    exact logLoss_antitone (by linarith)

/-- if the propensity is logistic, its coefficients are those of the logistic regression -/
theorem logistic_correct {θ : Fin (k + 1) → ℝ} (hV : Measurable V) (hbin : ∀ᵐ ω ∂P, (V ω).2.1 = 0 ∨ (V ω).2.1 = 1)
    (hz : ∀ j, Integrable (fun ω => (V ω).1 j) P) (hnd : Nondegenerate P fun ω => withOne (V ω))
    (he : PropensityIs P V fun z => Real.sigmoid (θ 0 + ∑ j, θ j.succ * z j)) : LogisticRegression P V θ := by
  have hx : AEMeasurable (fun ω => (V ω).2.1) P := hV.aemeasurable.snd.fst
  have hb := binary_bounds hbin
  have hxi : Integrable (fun ω => (V ω).2.1) P := by
    refine Integrable.mono' (integrable_const 1) hx.aestronglyMeasurable ?_
    filter_upwards [hb] with ω h'
    rw [Real.norm_of_nonneg h'.1]
    exact h'.2
  have hdot : ∀ (t : Fin (k + 1) → ℝ) ω, ∑ j, t j * withOne (V ω) j = t 0 + ∑ j, t j.succ * (V ω).1 j := by
    intro t ω
    rw [Fin.sum_univ_succ]
    simp [withOne]
  have hl := logit_integrable (P := P) (withOne_integrable hz)
  -- labels may be replaced by their conditional means
  have key : ∀ t : Fin (k + 1) → ℝ, popLoss P (fun ω => (V ω).2.1) (fun ω => withOne (V ω)) t =
      ∫ ω, logLoss (Real.sigmoid (∑ j, θ j * withOne (V ω) j)) (∑ j, t j * withOne (V ω) j) ∂P := by
    intro t
    have hxt : Integrable (fun ω => (t 0 + ∑ j, t j.succ * (V ω).1 j) * (V ω).2.1) P := by
      refine Integrable.mono' (hl t).abs ?_ ?_
      · have := hV.aemeasurable (μ := P)
        have h1 : AEMeasurable (fun ω => t 0 + ∑ j, t j.succ * (V ω).1 j) P := by
          refine ((hl t).aemeasurable).congr (Eventually.of_forall fun ω => hdot t ω)
        exact (h1.mul hx).aestronglyMeasurable
      · filter_upwards [hb] with ω h'
        rw [hdot, norm_mul, Real.norm_eq_abs, Real.norm_of_nonneg h'.1]
        exact mul_le_of_le_one_right (abs_nonneg _) h'.2
    obtain ⟨h1, h2⟩ := integral_mul_condMean (P := P) (Y := fun ω => (V ω).2.1) (Z := fun ω => (V ω).1) (f := fun z => Real.sigmoid (θ 0 + ∑ j, θ j.succ * z j)) hV.fst he hxi (g := fun z => t 0 + ∑ j, t j.succ * z j) (by fun_prop) hxt
    have hsp : Integrable (fun ω => Real.log (1 + Real.exp (∑ j, t j * withOne (V ω) j))) P := by
      have := logLoss_integrable (x := fun _ => 0) (P := P) (by fun_prop) (by simp) (hl t)
      refine this.congr (Eventually.of_forall fun ω => ?_)
      simp [logLoss]
    unfold popLoss logLoss
    simp only [hdot] at hsp ⊢
    rw [integral_sub hsp (by simpa only [mul_comm] using hxt), integral_sub hsp (by simpa only [mul_comm] using h2)]
    congr 1
    simpa only [mul_comm] using h1
  rw [logisticRegression_iff]
  have ix : ∀ t : Fin (k + 1) → ℝ, Integrable (fun ω => logLoss (Real.sigmoid (∑ j, θ j * withOne (V ω) j)) (∑ j, t j * withOne (V ω) j)) P := fun t =>
    logLoss_integrable ((continuous_sigmoid.measurable).comp_aemeasurable (hl θ).aemeasurable)
      (Eventually.of_forall fun ω => ⟨Real.sigmoid_nonneg _, Real.sigmoid_le_one _⟩) (hl t)
  intro t ht
  rw [key, key]
  have hle : ∀ ω, logLoss (Real.sigmoid (∑ j, θ j * withOne (V ω) j)) (∑ j, θ j * withOne (V ω) j) ≤
      logLoss (Real.sigmoid (∑ j, θ j * withOne (V ω) j)) (∑ j, t j * withOne (V ω) j) := by
    intro ω
    by_cases h : ∑ j, t j * withOne (V ω) j = ∑ j, θ j * withOne (V ω) j
    · rw [h]
    · exact (logLoss_min h).le
  refine lt_of_le_of_ne (integral_mono (ix θ) (ix t) hle) fun h0 => ht ?_
  have h1 : (fun ω => logLoss (Real.sigmoid (∑ j, θ j * withOne (V ω) j)) (∑ j, t j * withOne (V ω) j) -
      logLoss (Real.sigmoid (∑ j, θ j * withOne (V ω) j)) (∑ j, θ j * withOne (V ω) j)) =ᵐ[P] 0 :=
    (integral_eq_zero_iff_of_nonneg (fun ω => sub_nonneg.2 (hle ω)) ((ix t).sub (ix θ))).1 (by rw [integral_sub (ix t) (ix θ), h0, sub_self])
  refine sub_eq_zero.1 (hnd (t - θ) ?_)
  filter_upwards [h1] with ω hω
  by_contra hne
  have : ∑ j, t j * withOne (V ω) j ≠ ∑ j, θ j * withOne (V ω) j := by
    intro e
    refine hne ?_
    simp only [Pi.sub_apply, sub_mul, Finset.sum_sub_distrib, e, sub_self]
  have := logLoss_min this
  simp only [Pi.zero_apply] at hω
  linarith

end Verif
