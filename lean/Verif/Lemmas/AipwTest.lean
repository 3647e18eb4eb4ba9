import Verif.Lemmas.AipwLimit2
import Verif.Lemmas.WeakLaw
import Verif.Lemmas.RidgeIntercept

/-!
# AIPW parameters fitted on one large sample
-/

set_option linter.unusedSectionVars false
set_option linter.unusedSimpArgs false

namespace Verif
open MeasureTheory ProbabilityTheory Filter Topology Arm Param
open scoped ENNReal

namespace AIPW
variable {M Q : Type} {R : Predictor M ℝ} {C : Predictor Q ℝ} {SR : M → Prop} {SC : Q → Prop} {μ : ℤ} {κ lam : ℝ} {k : ℕ}

theorem ridgeLoss_eq (us : List (Obs ℝ)) (b : Fin (k + 1) → ℝ) :
    ridgeLoss us lam b = (us.map fun u => (u.yv - ∑ l, b l * regressor (u.point k) l) ^ 2).sum + ∑ l, lam * b l ^ 2 := by
  unfold ridgeLoss
  rw [Finset.mul_sum]
  congr 3
  funext u
  rw [Fin.sum_univ_succ]
  rfl

/-- the response of a parameter that was fitted on enough units was fitted on these units -/
theorem response_fit {e e' : AIPW M Q ℝ} (he : Regular k SR SC μ κ e) {us : List (Obs ℝ)} (hbin : ∀ u ∈ us, u.Binary) (h : μ ≤ Obs.treated us ∧ μ ≤ Obs.control us)
    (hf : fit R C (Obs.dataset k us) e = (.ok (), e')) : R.fit e.response (us.map fun u => u.xv :: u.zv) (us.map Obs.yv) = (.ok (), e'.response) := by
  have hk := he.covDim
  subst hk
  have htf : tooFew e.minUnits (Obs.dataset e.covDim us).nUnits (us.map Obs.x) = false := by
    rw [← Bool.not_eq_true, Obs.tooFew_iff us hbin, he.minUnits, not_not]
    exact h
  rw [fit_enough R C us e htf] at hf
  cases hr : R.fitRows (us.map fun u => u.xv :: u.zv) (us.map Obs.yv) e.response with
  | mk r m =>
    rw [hr] at hf
    cases r with
    | error _ => simp at hf
    | ok _ =>
      simp only at hf
      cases hc : C.fitRows (us.map Obs.zv) (us.map Obs.xv) e.propensity with
      | mk r' p =>
        rw [hc] at hf
        cases r' with
        | error _ => simp at hf
        | ok _ =>
          simp only [Prod.mk.injEq, true_and] at hf
          subst hf
          unfold Predictor.fitRows at hr
          split at hr
          · simp at hr
          · exact hr

variable {Ω : Type} [MeasurableSpace Ω] {P : Measure Ω} [IsProbabilityMeasure P]

/-- A parameter fitted on `n` units of a population has, with a probability that tends to 1, every property that parameters have whose response coefficients converge to those
of the population. -/
theorem fit_likely (hk0 : 0 < k) (hR : R.IsRidge SR lam) (hl : 0 ≤ lam) (hC : C.IsLogistic SC) (hμ : 1 ≤ μ) {e0 : AIPW M Q ℝ} (he : Regular k SR SC μ κ e0)
    {X : ℕ → ℕ → Ω → Obs ℝ} (hX : ∀ n, 0 < n → Iid P fun i ω => (X n i ω).point k) {Y : Ω → (Fin k → ℝ) × ℝ × ℝ} (hY : ∀ n, 0 < n → IdentDistrib (fun ω => (X n 0 ω).point k) Y P P)
    (hbin : ∀ n i ω, (X n i ω).Binary) (hlen : ∀ n i ω, (X n i ω).z.length = k) (hq0 : 0 < ∫ ω, (Y ω).2.1 ∂P) (hq1 : ∫ ω, (Y ω).2.1 ∂P < 1)
    (hx : MemLp (fun ω => (Y ω).2.1) 2 P) (h4 : ∀ j, MemLp (fun ω => regressor (Y ω) j) 4 P) (hy : MemLp (fun ω => (Y ω).2.2) 4 P)
    (hnd : Nondegenerate P fun ω => regressor (Y ω)) {b : Fin (k + 1) → ℝ} (hb : LeastSquares P Y b)
    {Good : AIPW M Q ℝ → Prop}
    (hG : ∀ (e : ℕ → AIPW M Q ℝ) (us : ℕ → List (Obs ℝ)) (c : ℕ → Fin (k + 1) → ℝ),
      (∀ᶠ n in atTop, us n ≠ [] ∧ (∀ u ∈ us n, u.z.length = k) ∧ R.fit e0.response ((us n).map fun u => u.xv :: u.zv) ((us n).map Obs.yv) = (.ok (), (e n).response) ∧
        ∀ r, r.length = k + 1 → R.predict (e n).response r = linearValue (c n) r) → Tendsto c atTop (𝓝 b) → ∀ᶠ n in atTop, Good (e n)) :
    Tendsto (fun n => P {ω | ¬ ∃ e, fit R C (Obs.dataset k ((List.range n).map fun i => X n i ω)) e0 = (.ok (), e) ∧ Good e}) atTop (𝓝 0) := by
  have h24 : (2 : ℝ≥0∞) ≤ 4 := by norm_num
  have hL : ∀ j, MemLp (fun ω => regressor (Y ω) j) 2 P := fun j => (h4 j).mono_exponent h24
  have hdet := Nondegenerate.moments_det hnd hL
  have hmom := LeastSquares.moments hb hL (hy.mono_exponent h24)
  have h442 : ENNReal.HolderTriple 4 4 2 := ⟨by
    rw [← two_mul, show (4 : ℝ≥0∞) = 2 * 2 by norm_num, ENNReal.mul_inv (by simp) (by simp), ← mul_assoc, ENNReal.mul_inv_cancel (by simp) (by simp), one_mul]⟩
  refine likely (J := (Fin (k + 1) × Fin (k + 1)) ⊕ Fin (k + 1) ⊕ Unit) hX hY
    (g := Sum.elim (fun q p => regressor p q.1 * regressor p q.2) (Sum.elim (fun j p => regressor p j * p.2.2) fun _ p => p.2.1)) ?_ ?_ ?_
  · rintro (⟨i, j⟩ | j | -)
    · exact (LinReg.measurable_regressor i).mul (LinReg.measurable_regressor j)
    · exact (LinReg.measurable_regressor j).mul (by fun_prop)
    · show Measurable fun p : (Fin k → ℝ) × ℝ × ℝ => p.2.1
      fun_prop
  · rintro (⟨i, j⟩ | j | -)
    · exact (h4 j).mul' (h4 i)
    · exact hy.mul' (h4 j)
    · exact hx
  intro N x hN hmo
  set us : ℕ → List (Obs ℝ) := fun i => (List.range (N i)).map fun l => X (N i) l (x i) with hus
  have hmean : ∀ g : (Fin k → ℝ) × ℝ × ℝ → ℝ, ∀ i, empMean g (fun l ω => (X (N i) l ω).point k) (N i) (x i) = pmean ((us i).map fun u => g (u.point k)) := by
    intro g i
    rw [hus, List.map_map]
    rfl
  simp only [hmean] at hmo
  have hlen' : Tendsto (fun n => (us n).length) atTop atTop := by simpa [hus] using hN
  have hb' : ∀ n, ∀ u ∈ us n, u.Binary := by
    intro n u hu
    obtain ⟨l, -, rfl⟩ := List.mem_map.1 hu
    exact hbin _ _ _
  have hl' : ∀ n, ∀ u ∈ us n, u.z.length = k := by
    intro n u hu
    obtain ⟨l, -, rfl⟩ := List.mem_map.1 hu
    exact hlen _ _ _
  have hen := enough_of_mean hlen' hb' hq0 hq1 (hmo (.inr (.inr ()))) μ
  have hne : ∀ᶠ n in atTop, us n ≠ [] := by
    filter_upwards [hlen'.eventually_ge_atTop 1] with n hn h
    rw [h] at hn
    simp at hn
  have hch : ∀ n, ∃ (e : AIPW M Q ℝ) (c : Fin (k + 1) → ℝ), us n ≠ [] → fit R C (Obs.dataset k (us n)) e0 = (.ok (), e) ∧
      (μ ≤ Obs.treated (us n) ∧ μ ≤ Obs.control (us n) → ∃ θ, FittedOn R C k lam (us n) e c θ) := by
    intro n
    by_cases h : us n = []
    · exact ⟨e0, 0, fun h' => absurd h h'⟩
    obtain ⟨e, a1, a2, a3, -⟩ := fit_regular hk0 hR hC hμ he h (hb' n) (hl' n)
    by_cases h' : μ ≤ Obs.treated (us n) ∧ μ ≤ Obs.control (us n)
    · obtain ⟨c, θ, hθ⟩ := a3 h'
      exact ⟨e, c, fun _ => ⟨a1, fun _ => ⟨θ, hθ⟩⟩⟩
    · exact ⟨e, 0, fun _ => ⟨a1, fun h => absurd h h'⟩⟩
  choose e c hf using hch
  have hconv : Tendsto c atTop (𝓝 b) := by
    refine minimisers_tendsto (us := us) hlen' (fun u => regressor (u.point k)) Obs.yv (D := fun _ => lam) (fun _ => hl) hdet
      (fun i j => hmo (.inl (i, j))) (fun j => by rw [← hmom j]; exact hmo (.inr (.inl j))) ?_
    filter_upwards [hen, hne] with n a1 a2
    obtain ⟨θ, hθ⟩ := (hf n a2).2 a1
    intro t
    have := hθ.ridge t
    rwa [ridgeLoss_eq, ridgeLoss_eq] at this
  have hall : ∀ᶠ n in atTop, fit R C (Obs.dataset k (us n)) e0 = (.ok (), e n) ∧ us n ≠ [] ∧ (∀ u ∈ us n, u.z.length = k) ∧
      R.fit e0.response ((us n).map fun u => u.xv :: u.zv) ((us n).map Obs.yv) = (.ok (), (e n).response) ∧
        ∀ r, r.length = k + 1 → R.predict (e n).response r = linearValue (c n) r := by
    filter_upwards [hen, hne] with n a1 a2
    obtain ⟨θ, hθ⟩ := (hf n a2).2 a1
    exact ⟨(hf n a2).1, a2, hl' n, response_fit he (hb' n) a1 (hf n a2).1, hθ.response⟩
  obtain ⟨i, h7, h8⟩ := (hall.and (hG e us c (hall.mono fun _ h => h.2) hconv)).exists
  exact ⟨i, e i, h7.1, h8⟩

end AIPW
end Verif
