import Verif.Lemmas.AipwStream
import Mathlib.Topology.Separation.CompletelyRegular
import Mathlib.MeasureTheory.Function.LpSeminorm.TriangleInequality

/-!
# Limits of the coefficients of ridge and logistic regression
-/

set_option linter.unusedSectionVars false
set_option linter.unusedSimpArgs false

namespace Verif
open MeasureTheory ProbabilityTheory Filter Topology Arm Param

variable {k : ℕ}

/-! ## Ridge regression -/

/-- the minimiser of the ridge objective solves the normal equations -/
theorem ridge_coef {us : List (Obs ℝ)} (hne : us ≠ []) {lam : ℝ} (hl : 0 < lam) {b : Fin (k + 1) → ℝ} (hmin : ∀ c : Fin (k + 1) → ℝ, ridgeLoss us lam b ≤ ridgeLoss us lam c) :
    b = (Matrix.of (fun i j => pmean (us.map fun u => regressor (u.point k) i * regressor (u.point k) j)) + (lam / us.length) • (1 : Matrix (Fin (k + 1)) (Fin (k + 1)) ℝ))⁻¹.mulVec
      fun j => pmean (us.map fun u => regressor (u.point k) j * u.yv) := by
  have hn : (us.length : ℝ) ≠ 0 := by
    have := List.length_pos_iff.mpr hne
    exact_mod_cast this.ne'
  rw [← LinReg.model_eq us hne hl]
  set A := LinReg.penalised (k := k) (us.map LinReg.row) lam with hA
  have hdet : IsUnit A.det := Ne.isUnit (LinReg.penalised_det us lam hl)
  set rhs : Fin (k + 1) → ℝ := fun i => (us.map fun u => (LinReg.row u).getD i 0 * u.yv).sum with hrhs
  have hbeta : A.mulVec (A⁻¹.mulVec rhs) = rhs := by
    rw [Matrix.mulVec_mulVec, Matrix.mul_nonsing_inv _ hdet, Matrix.one_mulVec]
  have hsub := LinReg.ridgeLoss_sub us lam (A⁻¹.mulVec rhs) b fun i => congrFun hbeta i
  have hle := hmin (A⁻¹.mulVec rhs)
  have hb : b = A⁻¹.mulVec rhs := by
    by_contra hne'
    have := LinReg.quad_pos us lam hl (b - A⁻¹.mulVec rhs) (sub_ne_zero.2 hne')
    linarith
  rw [hb, Matrix.smul_mulVec, ← Matrix.mulVec_smul]
  congr 1
  funext j
  simp only [hrhs, Pi.smul_apply, smul_eq_mul, LinReg.row_getD]
  unfold pmean
  rw [List.length_map, mul_div_cancel₀ _ hn]

section
variable {Ω W : Type} [MeasurableSpace Ω] {P : Measure Ω} [IsProbabilityMeasure P]

/-- regressors without linear dependence have an invertible matrix of second moments -/
theorem Nondegenerate.exists_inverse {V : Ω → (Fin k → ℝ) × ℝ × ℝ} (h : Nondegenerate P fun ω => regressor (V ω))
    (h2 : ∀ j, MemLp (fun ω => regressor (V ω) j) 2 P) : ∃ M, M * designMoments P V = 1 := by
  have hdet : (designMoments P V).det ≠ 0 := by
    intro h0
    obtain ⟨v, hv, e⟩ := Matrix.exists_mulVec_eq_zero_iff.mpr h0
    refine hv (h v ?_)
    have hint : ∀ i j, Integrable (fun ω => regressor (V ω) i * regressor (V ω) j) P := fun i j => (h2 i).integrable_mul (h2 j)
    have e1 : ∀ ω, (∑ j, v j * regressor (V ω) j) ^ 2 = ∑ i, ∑ j, v i * v j * (regressor (V ω) i * regressor (V ω) j) := by
      intro ω
      rw [sq, Finset.sum_mul]
      refine Finset.sum_congr rfl fun i _ => ?_
      rw [Finset.mul_sum]
      exact Finset.sum_congr rfl fun j _ => by ring
    have hi : ∀ i, Integrable (fun ω => ∑ j, v i * v j * (regressor (V ω) i * regressor (V ω) j)) P := fun i =>
      integrable_finsetSum _ fun j _ => (hint i j).const_mul _
    have hsq : Integrable (fun ω => (∑ j, v j * regressor (V ω) j) ^ 2) P := by
      simp only [e1]
      exact integrable_finsetSum _ fun i _ => hi i
    have hz : ∫ ω, (∑ j, v j * regressor (V ω) j) ^ 2 ∂P = 0 := by
      simp only [e1]
      rw [integral_finsetSum _ fun i _ => hi i]
      have : ∀ i, ∫ ω, ∑ j, v i * v j * (regressor (V ω) i * regressor (V ω) j) ∂P = v i * (designMoments P V).mulVec v i := by
        intro i
        rw [integral_finsetSum _ fun j _ => (hint i j).const_mul _, Matrix.mulVec, dotProduct, Finset.mul_sum]
        refine Finset.sum_congr rfl fun j _ => ?_
        rw [integral_const_mul]
        simp only [designMoments, Matrix.of_apply]
        ring
      simp only [this, e]
      simp
    have := (integral_eq_zero_iff_of_nonneg (fun ω => sq_nonneg _) hsq).1 hz
    filter_upwards [this] with ω hω
    exact pow_eq_zero_iff (two_ne_zero) |>.1 hω
  exact ⟨(designMoments P V)⁻¹, Matrix.nonsing_inv_mul _ (Ne.isUnit hdet)⟩

/-- the least-squares coefficients exist -/
theorem Nondegenerate.exists_leastSquares {V : Ω → (Fin k → ℝ) × ℝ × ℝ} (h : Nondegenerate P fun ω => regressor (V ω))
    (h2 : ∀ j, MemLp (fun ω => regressor (V ω) j) 2 P) (hy : MemLp (fun ω => (V ω).2.2) 2 P) : ∃ b, LeastSquares P V b := by
  obtain ⟨M, hM⟩ := Nondegenerate.exists_inverse h h2
  have hint : ∀ i j, Integrable (fun ω => regressor (V ω) i * regressor (V ω) j) P := fun i j => (h2 i).integrable_mul (h2 j)
  have hyi : ∀ j, Integrable (fun ω => regressor (V ω) j * (V ω).2.2) P := fun j => (h2 j).integrable_mul hy
  refine ⟨M.mulVec fun j => ∫ ω, regressor (V ω) j * (V ω).2.2 ∂P, fun j => ?_⟩
  have e : (designMoments P V).mulVec (M.mulVec fun j => ∫ ω, regressor (V ω) j * (V ω).2.2 ∂P) j = ∫ ω, regressor (V ω) j * (V ω).2.2 ∂P := by
    rw [Matrix.mulVec_mulVec, mul_eq_one_comm.1 hM, Matrix.one_mulVec]
  generalize M.mulVec (fun j => ∫ ω, regressor (V ω) j * (V ω).2.2 ∂P) = b at e ⊢
  have e1 : (fun ω => regressor (V ω) j * ((V ω).2.2 - ∑ l, b l * regressor (V ω) l)) =
      fun ω => regressor (V ω) j * (V ω).2.2 - ∑ l, regressor (V ω) j * regressor (V ω) l * b l := by
    funext ω
    rw [mul_sub, Finset.mul_sum]
    exact congrArg _ (Finset.sum_congr rfl fun l _ => by ring)
  rw [e1, integral_sub (hyi j) (integrable_finsetSum _ fun l _ => (hint j l).mul_const _), integral_finsetSum _ fun l _ => (hint j l).mul_const _, sub_eq_zero, ← e]
  show ∑ l, (∫ ω, regressor (V ω) j * regressor (V ω) l ∂P) * b l = _
  exact Finset.sum_congr rfl fun l _ => (integral_mul_const _ _).symm

/-- the solutions of the normal equations converge -/
theorem ridge_tendsto {V : ℕ → Ω → (Fin k → ℝ) × ℝ × ℝ} (hV : Iid P V) (h2 : ∀ j, MemLp (fun ω => regressor (V 0 ω) j) 2 P)
    (hy : MemLp (fun ω => (V 0 ω).2.2) 2 P)
    (hnd : Nondegenerate P fun ω => regressor (V 0 ω)) {b : Fin (k + 1) → ℝ} (hb : LeastSquares P (V 0) b)
    (rng : Rng W ℝ) {size : ℕ → ℕ} (hsize : ∀ n, 2 ≤ size n) (w : ℕ → W) (lam : ℝ) :
    ∀ᵐ ω ∂P, Tendsto (fun n => (Matrix.of (fun i j => pmean ((foldIdx rng size w 0 n).map fun a => regressor (V a ω) i * regressor (V a ω) j)) +
        (lam / (foldIdx rng size w 0 n).length) • (1 : Matrix (Fin (k + 1)) (Fin (k + 1)) ℝ))⁻¹.mulVec
          fun j => pmean ((foldIdx rng size w 0 n).map fun a => regressor (V a ω) j * (V a ω).2.2)) atTop (𝓝 b) := by
  obtain ⟨M, hM⟩ := hnd.exists_inverse h2
  have hint : ∀ i j, Integrable (fun ω => regressor (V 0 ω) i * regressor (V 0 ω) j) P := fun i j => (h2 i).integrable_mul (h2 j)
  have hyi : ∀ j, Integrable (fun ω => regressor (V 0 ω) j * (V 0 ω).2.2) P := fun j => (h2 j).integrable_mul hy
  have hdet : (designMoments P (V 0)).det ≠ 0 := by
    intro h0
    have := congrArg Matrix.det hM
    rw [Matrix.det_mul, h0] at this
    simp at this
  have hMi : M = (designMoments P (V 0))⁻¹ := (Matrix.inv_eq_left_inv hM).symm
  have hmom : (fun j => ∫ ω, regressor (V 0 ω) j * (V 0 ω).2.2 ∂P) = (designMoments P (V 0)).mulVec b := by
    funext j
    have h := hb j
    have e : (fun ω => regressor (V 0 ω) j * ((V 0 ω).2.2 - ∑ l, b l * regressor (V 0 ω) l)) =
        fun ω => regressor (V 0 ω) j * (V 0 ω).2.2 - ∑ l, regressor (V 0 ω) j * regressor (V 0 ω) l * b l := by
      funext ω
      rw [mul_sub, Finset.mul_sum]
      exact congrArg _ (Finset.sum_congr rfl fun l _ => by ring)
    rw [e, integral_sub (hyi j) (integrable_finsetSum _ fun l _ => (hint j l).mul_const _), integral_finsetSum _ fun l _ => (hint j l).mul_const _,
      sub_eq_zero] at h
    rw [h]
    exact Finset.sum_congr rfl fun l _ => integral_mul_const _ _
  have hbM : b = M.mulVec fun j => ∫ ω, regressor (V 0 ω) j * (V 0 ω).2.2 ∂P := by
    rw [hmom, Matrix.mulVec_mulVec, hM, Matrix.one_mulVec]
  have hs : ∀ᵐ ω ∂P, ∀ i j, Tendsto (fun n => pmean ((foldIdx rng size w 0 n).map fun a => regressor (V a ω) i * regressor (V a ω) j)) atTop
      (𝓝 (designMoments P (V 0) i j)) := by
    rw [ae_all_iff]; intro i
    rw [ae_all_iff]; intro j
    exact fold_slln hV rng size w (by omega) hsize (g := fun p => regressor p i * regressor p j) ((LinReg.measurable_regressor i).mul (LinReg.measurable_regressor j)) (hint i j)
  have hs2 : ∀ᵐ ω ∂P, ∀ j, Tendsto (fun n => pmean ((foldIdx rng size w 0 n).map fun a => regressor (V a ω) j * (V a ω).2.2)) atTop
      (𝓝 (∫ ω, regressor (V 0 ω) j * (V 0 ω).2.2 ∂P)) := by
    rw [ae_all_iff]; intro j
    exact fold_slln hV rng size w (by omega) hsize (g := fun p => regressor p j * p.2.2) ((LinReg.measurable_regressor j).mul (by fun_prop)) (hyi j)
  filter_upwards [hs, hs2] with ω h1 h3
  rw [hbM]
  have hlen : Tendsto (fun n => lam / ((foldIdx rng size w 0 n).length : ℝ)) atTop (𝓝 0) :=
    tendsto_const_nhds.div_atTop (tendsto_natCast_atTop_atTop.comp (foldIdx_atTop rng size w (by omega) hsize))
  have h4 : Tendsto (fun n => Matrix.of (fun i j => pmean ((foldIdx rng size w 0 n).map fun a => regressor (V a ω) i * regressor (V a ω) j)))
      atTop (𝓝 (designMoments P (V 0))) := by
    refine tendsto_pi_nhds.2 fun i => tendsto_pi_nhds.2 fun j => ?_
    exact h1 i j
  have h5 : Tendsto (fun n => (Matrix.of (fun i j => pmean ((foldIdx rng size w 0 n).map fun a => regressor (V a ω) i * regressor (V a ω) j)) +
        (lam / (foldIdx rng size w 0 n).length) • (1 : Matrix (Fin (k + 1)) (Fin (k + 1)) ℝ))⁻¹) atTop (𝓝 M) := by
    rw [hMi]
    refine LinReg.tendsto_inv ?_ hdet
    simpa using h4.add (hlen.smul_const (1 : Matrix (Fin (k + 1)) (Fin (k + 1)) ℝ))
  refine tendsto_pi_nhds.2 fun i => ?_
  simp only [Matrix.mulVec, dotProduct]
  exact tendsto_finsetSum _ fun j _ => ((tendsto_pi_nhds.1 (tendsto_pi_nhds.1 h5 i)) j).mul (h3 j)

/-! ## Logistic regression -/

theorem penalty_convex (c : ℝ) (hc : 0 ≤ c) : ConvexOn ℝ Set.univ fun θ : Fin (k + 1) → ℝ => c * (1 / 2 * ∑ j : Fin k, θ j.succ ^ 2) := by
  refine ⟨convex_univ, fun θ _ t _ a b ha hb hab => ?_⟩
  simp only [smul_eq_mul]
  have : ∑ j : Fin k, (a • θ + b • t) j.succ ^ 2 ≤ a * ∑ j : Fin k, θ j.succ ^ 2 + b * ∑ j : Fin k, t j.succ ^ 2 := by
    rw [Finset.mul_sum, Finset.mul_sum, ← Finset.sum_add_distrib]
    refine Finset.sum_le_sum fun j _ => ?_
    simp only [Pi.add_apply, Pi.smul_apply, smul_eq_mul]
    have : b = 1 - a := by linarith
    subst this
    nlinarith [mul_nonneg (mul_nonneg ha hb) (sq_nonneg (θ j.succ - t j.succ))]
  nlinarith [mul_le_mul_of_nonneg_left this hc]

theorem pmean_convex {ι : Type} (l : List ι) (f : ι → (Fin (k + 1) → ℝ) → ℝ) (hf : ∀ i, ConvexOn ℝ Set.univ (f i)) :
    ConvexOn ℝ Set.univ fun θ => pmean (l.map fun i => f i θ) := by
  refine ⟨convex_univ, fun θ _ t _ a b ha hb hab => ?_⟩
  simp only [smul_eq_mul]
  rw [← pmean_mul', ← pmean_mul', ← pmean_add']
  exact pmean_le_of _ _ _ fun i _ => by simpa using (hf i).2 (Set.mem_univ θ) (Set.mem_univ t) ha hb hab

theorem measurable_dot (q : Fin (k + 1) → ℝ) : Measurable fun p : (Fin k → ℝ) × ℝ × ℝ => ∑ j, q j * withOne p j :=
  Finset.measurable_fun_sum _ fun j _ => (withOne_measurable j).const_mul _

theorem measurable_unitLoss (q : Fin (k + 1) → ℝ) : Measurable fun p : (Fin k → ℝ) × ℝ × ℝ => logLoss p.2.1 (∑ j, q j * withOne p j) := by
  have h1 : Measurable fun p : (Fin k → ℝ) × ℝ × ℝ => p.2.1 := by fun_prop
  exact measurable_logLoss.comp (h1.prodMk (measurable_dot q))

theorem measurable_size : Measurable fun p : (Fin k → ℝ) × ℝ × ℝ => ∑ j, |withOne p j| :=
  Finset.measurable_fun_sum _ fun j _ => (withOne_measurable j).abs

/-- minimisers of the penalised loss on growing folds converge to the logistic regression -/
theorem logistic_tendsto {V : ℕ → Ω → (Fin k → ℝ) × ℝ × ℝ} (hV : Iid P V) (hbin : ∀ᵐ ω ∂P, ∀ i, (V i ω).2.1 = 0 ∨ (V i ω).2.1 = 1)
    (hz : ∀ j, Integrable (fun ω => (V 0 ω).1 j) P) {θ : Fin (k + 1) → ℝ} (hθ : LogisticRegression P (V 0) θ)
    (rng : Rng W ℝ) {size : ℕ → ℕ} (hsize : ∀ n, 2 ≤ size n) (w : ℕ → W) :
    ∀ᵐ ω ∂P, ∀ t : ℕ → Fin (k + 1) → ℝ, (∀ᶠ n in atTop, ∀ t' : Fin (k + 1) → ℝ,
      ((foldIdx rng size w 0 n).map fun i => logLoss (V i ω).2.1 (∑ j, t n j * withOne (V i ω) j)).sum + 1 / 2 * ∑ j : Fin k, t n j.succ ^ 2 ≤
      ((foldIdx rng size w 0 n).map fun i => logLoss (V i ω).2.1 (∑ j, t' j * withOne (V i ω) j)).sum + 1 / 2 * ∑ j : Fin k, t' j.succ ^ 2) →
      Tendsto t atTop (𝓝 θ) := by
  have hx : AEMeasurable (fun ω => (V 0 ω).2.1) P := ((hV.ident 0).aemeasurable_fst).snd.fst
  have hb := binary_bounds (hbin.mono fun ω h => h 0)
  obtain ⟨D, hDc, hDd⟩ := TopologicalSpace.exists_countable_dense (Fin (k + 1) → ℝ)
  have hs : ∀ᵐ ω ∂P, ∀ q ∈ D, Tendsto (fun n => pmean ((foldIdx rng size w 0 n).map fun i => logLoss (V i ω).2.1 (∑ j, q j * withOne (V i ω) j))) atTop
      (𝓝 (popLoss P (fun ω => (V 0 ω).2.1) (fun ω => withOne (V 0 ω)) q)) := by
    rw [ae_ball_iff hDc]
    intro q _
    refine fold_slln hV rng size w (by omega) hsize (g := fun p => logLoss p.2.1 (∑ j, q j * withOne p j)) (measurable_unitLoss q)
      (logLoss_integrable hx hb (logit_integrable (withOne_integrable hz) q))
  have hL := fold_slln hV rng size w (f := 0) (by omega) hsize (g := fun p => ∑ j, |withOne p j|)
    measurable_size (integrable_finsetSum _ fun j _ => (withOne_integrable hz j).abs)
  rw [logisticRegression_iff] at hθ
  filter_upwards [hs, hL, hbin] with ω h1 h2 h3 t ht
  have hlen := foldIdx_atTop rng size w (f := 0) (by omega) hsize
  refine argmin_tendsto (L := fun n θ => pmean ((foldIdx rng size w 0 n).map fun i => logLoss (V i ω).2.1 (∑ j, θ j * withOne (V i ω) j)))
    (F := popLoss P (fun ω => (V 0 ω).2.1) fun ω => withOne (V 0 ω)) (Q := fun θ => 1 / 2 * ∑ j : Fin k, θ j.succ ^ 2)
    (c := fun n => 1 / ((foldIdx rng size w 0 n).length : ℝ)) (D := D) (K := ∫ ω, ∑ j, |withOne (V 0 ω) j| ∂P + 1) ?_ ?_ ?_ ?_ ?_ ?_ hDd h1 hθ ?_
  · intro n
    exact (pmean_convex _ _ fun i => logLoss_dot_convex _ _).add (penalty_convex _ (by positivity))
  · intro θ; positivity
  · intro n; positivity
  · exact tendsto_const_nhds.div_atTop (tendsto_natCast_atTop_atTop.comp hlen)
  · have := h2.eventually_le_const (lt_add_one (∫ ω, ∑ j, |withOne (V 0 ω) j| ∂P))
    filter_upwards [this] with n hn a b
    have hbound : ∀ i, |logLoss (V i ω).2.1 (∑ j, a j * withOne (V i ω) j) - logLoss (V i ω).2.1 (∑ j, b j * withOne (V i ω) j)| ≤ ‖a - b‖ * ∑ j, |withOne (V i ω) j| := by
      intro i
      refine (logLoss_lipschitz ?_ ?_ _ _).trans (dot_lipschitz _ _ _) <;> rcases h3 i with h | h <;> rw [h] <;> norm_num
    have hup : pmean ((foldIdx rng size w 0 n).map fun i => logLoss (V i ω).2.1 (∑ j, a j * withOne (V i ω) j)) ≤
        pmean ((foldIdx rng size w 0 n).map fun i => logLoss (V i ω).2.1 (∑ j, b j * withOne (V i ω) j)) + ‖a - b‖ * pmean ((foldIdx rng size w 0 n).map fun i => ∑ j, |withOne (V i ω) j|) := by
      rw [← pmean_mul', ← pmean_add']
      exact pmean_le_of _ _ _ fun i _ => by linarith [(abs_le.1 (hbound i)).2]
    have hdn : pmean ((foldIdx rng size w 0 n).map fun i => logLoss (V i ω).2.1 (∑ j, b j * withOne (V i ω) j)) ≤
        pmean ((foldIdx rng size w 0 n).map fun i => logLoss (V i ω).2.1 (∑ j, a j * withOne (V i ω) j)) + ‖a - b‖ * pmean ((foldIdx rng size w 0 n).map fun i => ∑ j, |withOne (V i ω) j|) := by
      rw [← pmean_mul', ← pmean_add']
      exact pmean_le_of _ _ _ fun i _ => by linarith [(abs_le.1 (hbound i)).1]
    have h4 := mul_le_mul_of_nonneg_left hn (norm_nonneg (a - b))
    rw [abs_le]
    constructor <;> linarith
  · exact popLoss_continuous hx hb (withOne_integrable hz)
  · filter_upwards [ht, hlen.eventually_ge_atTop 1] with n hn hn1 t'
    have hpos : (0 : ℝ) < (foldIdx rng size w 0 n).length := by exact_mod_cast hn1
    have := hn t'
    unfold pmean
    rw [List.length_map, List.length_map, one_div, ← div_eq_inv_mul, ← div_eq_inv_mul, ← add_div, ← add_div]
    exact div_le_div_of_nonneg_right this hpos.le

end
end Verif
