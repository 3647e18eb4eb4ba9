import Verif.Lemmas.Stream2
import Mathlib.Probability.Moments.Variance

/-!
# Samples that are drawn anew for every sample size
-/

set_option linter.unusedSectionVars false

namespace Verif
open MeasureTheory ProbabilityTheory Filter Topology Arm
open scoped ENNReal

variable {Ω T : Type} [MeasurableSpace Ω] [MeasurableSpace T] {P : Measure Ω} [IsProbabilityMeasure P]

/-- the empirical mean of `g` over the first `n` variables -/
noncomputable def empMean (g : T → ℝ) (X : ℕ → Ω → T) (n : ℕ) (ω : Ω) : ℝ := pmean ((List.range n).map fun k => g (X k ω))

/-- Chebyshev's inequality for the empirical mean -/
theorem empMean_far {X : ℕ → Ω → T} (hX : Iid P X) {g : T → ℝ} (hg : Measurable g) (h2 : MemLp (fun ω => g (X 0 ω)) 2 P) {n : ℕ} (hn : 0 < n) {ε : ℝ} (hε : 0 < ε) :
    P {ω | ε ≤ |empMean g X n ω - ∫ ω, g (X 0 ω) ∂P|} ≤ ENNReal.ofReal (Var[fun ω => g (X 0 ω); P] / n / ε ^ 2) := by
  have hid : ∀ k, IdentDistrib (fun ω => g (X k ω)) (fun ω => g (X 0 ω)) P P := fun k => (hX.ident k).comp hg
  have hL : ∀ k, MemLp (fun ω => g (X k ω)) 2 P := fun k => (hid k).memLp_iff.2 h2
  have hn' : (n : ℝ) ≠ 0 := by positivity
  have he : empMean g X n = fun ω => (n : ℝ)⁻¹ * (∑ k ∈ Finset.range n, fun ω => g (X k ω)) ω := by
    funext ω
    rw [empMean, pmean_range, Finset.sum_apply]
    field_simp
  have hS : MemLp (∑ k ∈ Finset.range n, fun ω => g (X k ω)) 2 P := memLp_finsetSum' _ fun k _ => hL k
  have hE : ∫ ω, empMean g X n ω ∂P = ∫ ω, g (X 0 ω) ∂P := by
    rw [he, integral_const_mul]
    simp only [Finset.sum_apply]
    rw [integral_finsetSum _ fun k _ => (hL k).integrable (by norm_num), Finset.sum_congr rfl fun k _ => (hid k).integral_eq, Finset.sum_const, Finset.card_range,
      nsmul_eq_mul]
    field_simp
  have hV : Var[empMean g X n; P] = Var[fun ω => g (X 0 ω); P] / n := by
    rw [he, variance_const_mul, IndepFun.variance_sum (fun k _ => hL k) fun i _ j _ hij => (hX.indep.indepFun hij).comp hg hg, Finset.sum_congr rfl fun k _ => (hid k).variance_eq,
      Finset.sum_const, Finset.card_range, nsmul_eq_mul]
    field_simp
  have hM : MemLp (empMean g X n) 2 P := by
    rw [he]
    exact hS.const_mul _
  have := meas_ge_le_variance_div_sq hM hε
  rwa [hE, hV] at this

/-- If something holds for samples whose empirical means converge, it holds with a probability that tends to 1. -/
theorem likely {J : Type} [Fintype J] {X : ℕ → ℕ → Ω → T} (hX : ∀ n, 0 < n → Iid P (X n)) {Y : Ω → T} (hY : ∀ n, 0 < n → IdentDistrib (X n 0) Y P P) {g : J → T → ℝ} (hg : ∀ j, Measurable (g j))
    (h2 : ∀ j, MemLp (fun ω => g j (Y ω)) 2 P) {Good : ℕ → Ω → Prop}
    (h : ∀ (N : ℕ → ℕ) (x : ℕ → Ω), Tendsto N atTop atTop → (∀ j, Tendsto (fun i => empMean (g j) (X (N i)) (N i) (x i)) atTop (𝓝 (∫ ω, g j (Y ω) ∂P))) →
      ∃ i, Good (N i) (x i)) :
    Tendsto (fun n => P {ω | ¬ Good n ω}) atTop (𝓝 0) := by
  obtain ⟨ε, hε, N, hN⟩ : ∃ ε > 0, ∃ N : ℕ, ∀ n ≥ N, ∀ ω, (∀ j, |empMean (g j) (X n) n ω - ∫ ω, g j (Y ω) ∂P| < ε) → Good n ω := by
    by_contra hcon
    push Not at hcon
    choose n hn x hx hbad using fun i : ℕ => hcon (1 / ((i : ℝ) + 1)) (by positivity) i
    obtain ⟨i, hi⟩ := h n x (tendsto_atTop_mono hn tendsto_id) fun j => by
      rw [tendsto_iff_dist_tendsto_zero]
      refine squeeze_zero (fun _ => dist_nonneg) (fun i => ?_) tendsto_one_div_add_atTop_nhds_zero_nat
      rw [Real.dist_eq]
      exact (hx i j).le
    exact hbad i hi
  have hb : ∀ n ≥ N + 1, P {ω | ¬ Good n ω} ≤ ∑ j, ENNReal.ofReal (Var[fun ω => g j (Y ω); P] / n / ε ^ 2) := by
    intro n hn
    calc P {ω | ¬ Good n ω} ≤ P (⋃ j, {ω | ε ≤ |empMean (g j) (X n) n ω - ∫ ω, g j (Y ω) ∂P|}) := by
          refine measure_mono fun ω hω => ?_
          simp only [Set.mem_iUnion, Set.mem_ofPred_eq]
          by_contra hcon
          push Not at hcon
          exact hω (hN n (by omega) ω hcon)
      _ ≤ ∑ j, P {ω | ε ≤ |empMean (g j) (X n) n ω - ∫ ω, g j (Y ω) ∂P|} := measure_iUnion_fintype_le _ _
      _ ≤ _ := Finset.sum_le_sum fun j _ => by
          have hid := (hY n (by omega)).comp (hg j)
          have := empMean_far (hX n (by omega)) (hg j) (hid.memLp_iff.2 (h2 j)) (n := n) (by omega) hε
          rwa [show ∫ ω, g j (X n 0 ω) ∂P = ∫ ω, g j (Y ω) ∂P from hid.integral_eq, show Var[fun ω => g j (X n 0 ω); P] = Var[fun ω => g j (Y ω); P] from hid.variance_eq] at this
  have hlim : Tendsto (fun n : ℕ => ∑ j, ENNReal.ofReal (Var[fun ω => g j (Y ω); P] / n / ε ^ 2)) atTop (𝓝 0) := by
    rw [show (0 : ℝ≥0∞) = ∑ _j : J, ENNReal.ofReal (0 / ε ^ 2) by simp]
    exact tendsto_finsetSum _ fun j _ => ENNReal.tendsto_ofReal ((tendsto_const_div_atTop_nhds_zero_nat _).div_const _)
  exact tendsto_of_tendsto_of_tendsto_of_le_of_le' tendsto_const_nhds hlim (Eventually.of_forall fun _ => zero_le) (eventually_atTop.2 ⟨N + 1, hb⟩)

end Verif
