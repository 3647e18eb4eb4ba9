import Verif.Spec.Regression
import Verif.Lemmas.Stream3
import Verif.Lemmas.Stream4
import Verif.Lemmas.CoverageDemo2
import Verif.Props.LinReg
import Mathlib.Topology.Instances.Matrix

/-!
# Property C97: arms with `LinearRegressionParameter` are consistent
-/

set_option linter.unusedSectionVars false
set_option linter.unusedSimpArgs false

namespace Verif
open MeasureTheory ProbabilityTheory Filter Topology Arm Param

namespace LinReg

theorem pure_score {k : ℕ} (e : LinReg k ℝ) (d : ExpData (Cell ℝ)) : ((ops : EtaOps (LinReg k ℝ) (Cell ℝ) ℝ).score e d).2 = e := rfl

theorem repeatable {k : ℕ} : ScoreRepeatable (ops : EtaOps (LinReg k ℝ) (Cell ℝ) ℝ) := fun _ _ => rfl

theorem row_getD {k : ℕ} (u : Obs ℝ) (j : Fin (k + 1)) : (row u).getD j 0 = regressor (u.point k) j := by
  refine Fin.cases ?_ (fun i => ?_) j
  · rfl
  · simp [row, regressor, Obs.point]

/-- the matrix fitted on `us` -/
theorem model_eq {k : ℕ} (us : List (Obs ℝ)) (hne : us ≠ []) {l : ℝ} (hl : 0 < l) :
    (us.length : ℝ) • (penalised (k := k) (us.map row) l)⁻¹ =
      (Matrix.of (fun i j => pmean (us.map fun u => regressor (u.point k) i * regressor (u.point k) j)) + (l / us.length) • (1 : Matrix (Fin (k + 1)) (Fin (k + 1)) ℝ))⁻¹ := by
  have hn : (us.length : ℝ) ≠ 0 := by
    have := List.length_pos_iff.mpr hne
    exact_mod_cast this.ne'
  have e : penalised (k := k) (us.map row) l = (us.length : ℝ) •
      (Matrix.of (fun i j => pmean (us.map fun u => regressor (u.point k) i * regressor (u.point k) j)) + (l / us.length) • (1 : Matrix (Fin (k + 1)) (Fin (k + 1)) ℝ)) := by
    unfold penalised
    rw [Widths.gram_eq, smul_add, smul_smul, mul_div_cancel₀ _ hn]
    congr 1
    ext i j
    simp only [secondMoments, Matrix.of_apply, Matrix.smul_apply, smul_eq_mul, List.map_map, Function.comp_def, row_getD]
    unfold pmean
    rw [List.length_map, mul_div_cancel₀ _ hn]
  symm
  refine Matrix.inv_eq_left_inv ?_
  rw [Matrix.smul_mul, ← Matrix.mul_smul, ← e, Matrix.nonsing_inv_mul _ (Ne.isUnit (penalised_det us l hl))]

theorem tendsto_inv {m : ℕ} {A : ℕ → Matrix (Fin m) (Fin m) ℝ} {B : Matrix (Fin m) (Fin m) ℝ} (hA : Tendsto A atTop (𝓝 B)) (hB : B.det ≠ 0) :
    Tendsto (fun n => (A n)⁻¹) atTop (𝓝 B⁻¹) := by
  have h1 : Tendsto (fun n => (A n).det) atTop (𝓝 B.det) := (continuous_id.matrix_det.tendsto B).comp hA
  have h2 : Tendsto (fun n => (A n).adjugate) atTop (𝓝 B.adjugate) := (continuous_id.matrix_adjugate.tendsto B).comp hA
  simp only [Matrix.inv_def, Ring.inverse_eq_inv']
  exact (h1.inv₀ hB).smul h2

section
variable {Ω W : Type} [MeasurableSpace Ω] {P : Measure Ω} [IsProbabilityMeasure P] {k : ℕ}

/-- the state of the nuisance parameter after an update -/
theorem stream_eta {cfg : SSConfig (Cell ℝ) ℝ} {rng : Rng W ℝ} {u : ℕ → Obs ℝ} {size : ℕ → ℕ} (hsize : ∀ n, 2 ≤ size n)
    {δ : Fl ℝ} {s : ℕ → ArmState (LinReg k ℝ) (Cell ℝ) ℝ} {w : ℕ → W} {ci : ℕ → Fl ℝ × Fl ℝ} (h : Streams k cfg ops rng u size δ s w ci)
    (hl : 0 < (s 0).eta.lReg) (n : ℕ) : (s n).eta.lReg = (s 0).eta.lReg ∧ (s (n + 1)).eta.hasBeenFit = true ∧
      (s (n + 1)).eta.model = (Matrix.of (fun i j => pmean ((foldIdx rng size w 0 (n + 1)).map fun a => regressor ((u a).point k) i * regressor ((u a).point k) j)) +
        ((s 0).eta.lReg / (foldIdx rng size w 0 (n + 1)).length) • (1 : Matrix (Fin (k + 1)) (Fin (k + 1)) ℝ))⁻¹ := by
  have hne : ∀ n, (foldIdx rng size w 0 (n + 1)).map u ≠ [] := by
    intro n h0
    have := foldIdx_length rng size w (f := 0) (by omega) hsize (n + 1)
    rw [List.map_eq_nil_iff.1 h0] at this
    simp at this
  have hstep : ∀ n, (s n).eta.lReg = (s 0).eta.lReg → (s (n + 1)).eta = { (s n).eta with
      model := (((foldIdx rng size w 0 (n + 1)).map u).length : ℝ) • (penalised (((foldIdx rng size w 0 (n + 1)).map u).map row) (s n).eta.lReg)⁻¹,
      hasBeenFit := true, recent := some (Obs.dataset k ((foldIdx rng size w 0 (n + 1)).map u)) } := by
    intro n hn
    obtain ⟨e, h1, h2⟩ := stream_update h pure_score n
    have h3 := fit_dataset (s n).eta (by rw [hn]; exact hl) _ (hne n)
    rw [show (ops : EtaOps (LinReg k ℝ) (Cell ℝ) ℝ).fit (s n).eta _ = fit _ (s n).eta from rfl, h3] at h1
    simp only [Prod.mk.injEq, true_and] at h1
    rw [h2, ← h1]
  have hreg : ∀ n, (s n).eta.lReg = (s 0).eta.lReg := by
    intro n
    induction n with
    | zero => rfl
    | succ n ih => rw [hstep n ih]; exact ih
  refine ⟨hreg n, by rw [hstep n (hreg n)], ?_⟩
  rw [hstep n (hreg n)]
  simp only
  rw [hreg n, model_eq _ (hne n) hl, List.length_map]
  simp only [Function.comp_def, List.map_map]

theorem measurable_regressor (j : Fin (k + 1)) : Measurable fun p : (Fin k → ℝ) × ℝ × ℝ => regressor p j := by
  refine Fin.cases ?_ (fun i => ?_) j
  · simp only [regressor, Fin.cons_zero]; fun_prop
  · simp only [regressor, Fin.cons_succ]; fun_prop

theorem measurable_score (M : Matrix (Fin (k + 1)) (Fin (k + 1)) ℝ) : Measurable (regressionScore M : (Fin k → ℝ) × ℝ × ℝ → ℝ) := by
  unfold regressionScore
  have := fun j => measurable_regressor (k := k) j
  fun_prop

/-- the fitted matrices converge to the inverse of the second moments -/
theorem model_tendsto {U : ℕ → Ω → Obs ℝ} (hU : Iid P fun i ω => (U i ω).point k)
    (h2 : ∀ j, MemLp (fun ω => regressor ((U 0 ω).point k) j) 2 P) {M : Matrix (Fin (k + 1)) (Fin (k + 1)) ℝ}
    (hM : M * designMoments P (fun ω => (U 0 ω).point k) = 1)
    {cfg : SSConfig (Cell ℝ) ℝ} {rng : Rng W ℝ} {size : ℕ → ℕ} (hsize : ∀ n, 2 ≤ size n)
    {δ : Fl ℝ} {s : ℕ → Ω → ArmState (LinReg k ℝ) (Cell ℝ) ℝ} {w : ℕ → W} {ci : ℕ → Ω → Fl ℝ × Fl ℝ}
    (h : ∀ᵐ ω ∂P, Streams k cfg ops rng (fun i => U i ω) size δ (fun n => s n ω) w (fun n => ci n ω)) (hl : ∀ᵐ ω ∂P, 0 < (s 0 ω).eta.lReg) :
    ∀ᵐ ω ∂P, Tendsto (fun n => (s (n + 1) ω).eta.model) atTop (𝓝 M) := by
  have hint : ∀ i j, Integrable (fun ω => regressor ((U 0 ω).point k) i * regressor ((U 0 ω).point k) j) P := fun i j => (h2 i).integrable_mul (h2 j)
  have hs : ∀ᵐ ω ∂P, ∀ i j, Tendsto (fun n => pmean ((foldIdx rng size w 0 n).map fun a => regressor ((U a ω).point k) i * regressor ((U a ω).point k) j)) atTop
      (𝓝 (designMoments P (fun ω => (U 0 ω).point k) i j)) := by
    rw [ae_all_iff]; intro i
    rw [ae_all_iff]; intro j
    exact fold_slln hU rng size w (by omega) hsize (g := fun p => regressor p i * regressor p j) ((measurable_regressor i).mul (measurable_regressor j)) (hint i j)
  have hdet : (designMoments P (fun ω => (U 0 ω).point k)).det ≠ 0 := by
    intro h0
    have := congrArg Matrix.det hM
    rw [Matrix.det_mul, h0] at this
    simp at this
  have hMi : M = (designMoments P (fun ω => (U 0 ω).point k))⁻¹ := (Matrix.inv_eq_left_inv hM).symm
  filter_upwards [hs, h, hl] with ω h1 h2 h3
  have e : ∀ n, (s (n + 1) ω).eta.model = _ := fun n => (stream_eta hsize h2 h3 n).2.2
  simp only [e]
  rw [hMi]
  refine tendsto_inv ?_ hdet
  have hlen : Tendsto (fun n => (s 0 ω).eta.lReg / ((foldIdx rng size w 0 (n + 1)).length : ℝ)) atTop (𝓝 0) :=
    tendsto_const_nhds.div_atTop (tendsto_natCast_atTop_atTop.comp ((foldIdx_atTop rng size w (by omega) hsize).comp (tendsto_add_atTop_nat 1)))
  have h4 : Tendsto (fun n => Matrix.of (fun i j => pmean ((foldIdx rng size w 0 (n + 1)).map fun a => regressor ((U a ω).point k) i * regressor ((U a ω).point k) j)))
      atTop (𝓝 (designMoments P (fun ω => (U 0 ω).point k))) := by
    refine tendsto_pi_nhds.2 fun i => tendsto_pi_nhds.2 fun j => ?_
    exact (h1 i j).comp (tendsto_add_atTop_nat 1)
  simpa using h4.add (hlen.smul_const (1 : Matrix (Fin (k + 1)) (Fin (k + 1)) ℝ))

/-- the scores of the second fold -/
theorem stream_evaluated {cfg : SSConfig (Cell ℝ) ℝ} {rng : Rng W ℝ} {u : ℕ → Obs ℝ} {size : ℕ → ℕ} (hsize : ∀ n, 2 ≤ size n)
    {δ : Fl ℝ} {s : ℕ → ArmState (LinReg k ℝ) (Cell ℝ) ℝ} {w : ℕ → W} {ci : ℕ → Fl ℝ × Fl ℝ} (h : Streams k cfg ops rng u size δ s w ci)
    (hl : 0 < (s 0).eta.lReg) (n : ℕ) : EvaluatedOn ops (s (n + 1))
      ((foldIdx rng size w 1 (n + 1)).map fun i => ∑ j, (s (n + 1)).eta.model 0 j * (regressor ((u i).point k) j * ((u i).point k).2.2)) := by
  rcases (stream_split h (n + 1)).2 with ⟨-, h0⟩ | hs
  · omega
  refine ⟨_, _, hs, rfl, ?_, ?_, ?_⟩
  · simp [Obs.dataset_nUnits]
  · show Except.ok _ = _
    rw [(stream_eta hsize h hl n).2.1]
  · show score _ _ = _
    rw [score_dataset]
    simp only [List.map_map, Function.comp_def, row_getD]
    rfl

/-- the mean of the exact score is the coefficient of the exposure -/
theorem score_mean {V : Ω → (Fin k → ℝ) × ℝ × ℝ} (h2 : ∀ j, MemLp (fun ω => regressor (V ω) j) 2 P)
    (hy : ∀ j, MemLp (fun ω => regressor (V ω) j * (V ω).2.2) 2 P) {M : Matrix (Fin (k + 1)) (Fin (k + 1)) ℝ}
    (hM : M * designMoments P V = 1) {b : Fin (k + 1) → ℝ} (hb : LeastSquares P V b) : ∫ ω, regressionScore M (V ω) ∂P = b 0 := by
  have hint : ∀ i j, Integrable (fun ω => regressor (V ω) i * regressor (V ω) j) P := fun i j => (h2 i).integrable_mul (h2 j)
  have hyi : ∀ j, Integrable (fun ω => regressor (V ω) j * (V ω).2.2) P := fun j => (hy j).integrable (by norm_num)
  have hmom : ∀ j, ∫ ω, regressor (V ω) j * (V ω).2.2 ∂P = ∑ l, designMoments P V j l * b l := by
    intro j
    have h := hb j
    have e : (fun ω => regressor (V ω) j * ((V ω).2.2 - ∑ l, b l * regressor (V ω) l)) =
        fun ω => regressor (V ω) j * (V ω).2.2 - ∑ l, regressor (V ω) j * regressor (V ω) l * b l := by
      funext ω
      rw [mul_sub, Finset.mul_sum]
      exact congrArg _ (Finset.sum_congr rfl fun l _ => by ring)
    rw [e, integral_sub (hyi j) (integrable_finsetSum _ fun l _ => (hint j l).mul_const _), integral_finsetSum _ fun l _ => (hint j l).mul_const _,
      sub_eq_zero] at h
    rw [h]
    exact Finset.sum_congr rfl fun l _ => integral_mul_const _ _
  unfold regressionScore
  rw [integral_finsetSum _ fun j _ => (hyi j).const_mul _]
  simp only [integral_const_mul, hmom]
  have h1 : (M.mulVec ((designMoments P V).mulVec b)) 0 = b 0 := by
    rw [Matrix.mulVec_mulVec, hM, Matrix.one_mulVec]
  simpa [Matrix.mulVec, dotProduct] using h1

variable {U : ℕ → Ω → Obs ℝ} {M : Matrix (Fin (k + 1)) (Fin (k + 1)) ℝ} {b : Fin (k + 1) → ℝ} {cfg : SSConfig (Cell ℝ) ℝ} {rng : Rng W ℝ} {size : ℕ → ℕ}
  {s : ℕ → Ω → ArmState (LinReg k ℝ) (Cell ℝ) ℝ} {w : ℕ → W} {ci : ℕ → Ω → Fl ℝ × Fl ℝ}

/-- **C97**: a sample-splitting arm with a `LinearRegressionParameter` is updated again and again with blocks of at least two units from a stream
of independent, identically distributed units. Almost surely its estimate of the mean converges to the coefficient of the exposure in the
least-squares regression of the response on exposure and covariates, and its estimate of the variance to the variance of the exact score. -/
theorem C97_estimates_converge (hU : Iid P fun i ω => (U i ω).point k)
    (h2 : ∀ j, MemLp (fun ω => regressor ((U 0 ω).point k) j) 2 P) (hy : ∀ j, MemLp (fun ω => regressor ((U 0 ω).point k) j * (U 0 ω).yv) 2 P)
    (hM : M * designMoments P (fun ω => (U 0 ω).point k) = 1) (hb : LeastSquares P (fun ω => (U 0 ω).point k) b) (hsize : ∀ n, 2 ≤ size n) {δ : Fl ℝ}
    (h : ∀ᵐ ω ∂P, Streams k cfg ops rng (fun i => U i ω) size δ (fun n => s n ω) w (fun n => ci n ω)) (hl : ∀ᵐ ω ∂P, 0 < (s 0 ω).eta.lReg) :
    ∀ᵐ ω ∂P, EstimatesConverge (fun n => s n ω) (b 0) Var[fun ω => regressionScore M ((U 0 ω).point k); P] := by
  rw [← score_mean h2 hy hM hb]
  refine linear_estimates hU hsize (h := fun p j => regressor p j * p.2.2) (fun j => ?_) hy
    (cn := fun n ω j => (s (n + 1) ω).eta.model 0 j) ?_ h repeatable ?_
  · have := measurable_regressor (k := k) j
    fun_prop
  · filter_upwards [model_tendsto hU h2 hM hsize h hl] with ω hω
    exact tendsto_pi_nhds.1 hω 0
  · filter_upwards [h, hl] with ω h3 h4
    exact Eventually.of_forall fun n => stream_evaluated hsize h3 h4 n

/-- **C97**: with fourth moments, the intervals returned by `CLT` and `CHI2` arms shrink to the variance of the exact score. -/
theorem C97_intervals_converge (hU : Iid P fun i ω => (U i ω).point k)
    (h2 : ∀ j, MemLp (fun ω => regressor ((U 0 ω).point k) j) 2 P) (hy : ∀ j, MemLp (fun ω => regressor ((U 0 ω).point k) j * (U 0 ω).yv) 4 P)
    (hM : M * designMoments P (fun ω => (U 0 ω).point k) = 1) (hsize : ∀ n, 2 ≤ size n) {δ : ℝ} (halg : cfg.alg = .clt ∨ cfg.alg = .chi2)
    (h : ∀ᵐ ω ∂P, Streams k cfg ops rng (fun i => U i ω) size (.fin δ) (fun n => s n ω) w (fun n => ci n ω)) (hl : ∀ᵐ ω ∂P, 0 < (s 0 ω).eta.lReg) :
    ∀ᵐ ω ∂P, IntervalsConverge (fun n => ci n ω) Var[fun ω => regressionScore M ((U 0 ω).point k); P] := by
  refine linear_intervals hU hsize (h := fun p j => regressor p j * p.2.2) (fun j => ?_) hy
    (cn := fun n ω j => (s (n + 1) ω).eta.model 0 j) ?_ halg h repeatable ?_
  · have := measurable_regressor (k := k) j
    fun_prop
  · filter_upwards [model_tendsto hU h2 hM hsize h hl] with ω hω
    exact tendsto_pi_nhds.1 hω 0
  · filter_upwards [h, hl] with ω h3 h4
    exact Eventually.of_forall fun n => stream_evaluated hsize h3 h4 n

/-- **C97**: in the model assumed by the class, `Y = Z beta + X tau + eps` with noise uncorrelated to the regressors, the estimates of the mean
converge to `tau`. -/
theorem C97_linear_model (hU : Iid P fun i ω => (U i ω).point k)
    (h2 : ∀ j, MemLp (fun ω => regressor ((U 0 ω).point k) j) 2 P) (hy : ∀ j, MemLp (fun ω => regressor ((U 0 ω).point k) j * (U 0 ω).yv) 2 P)
    (hM : M * designMoments P (fun ω => (U 0 ω).point k) = 1) {τ : ℝ} {β : Fin k → ℝ} {ε : Ω → ℝ}
    (hlin : ∀ ω, (U 0 ω).yv = ∑ j, ((U 0 ω).point k).1 j * β j + (U 0 ω).xv * τ + ε ω)
    (hx : ∫ ω, (U 0 ω).xv * ε ω ∂P = 0) (hz : ∀ j, ∫ ω, ((U 0 ω).point k).1 j * ε ω ∂P = 0) (hsize : ∀ n, 2 ≤ size n) {δ : Fl ℝ}
    (h : ∀ᵐ ω ∂P, Streams k cfg ops rng (fun i => U i ω) size δ (fun n => s n ω) w (fun n => ci n ω)) (hl : ∀ᵐ ω ∂P, 0 < (s 0 ω).eta.lReg) :
    ∀ᵐ ω ∂P, EstimatesConverge (fun n => s n ω) τ Var[fun ω => regressionScore M ((U 0 ω).point k); P] := by
  have hb : LeastSquares P (fun ω => (U 0 ω).point k) (Fin.cons τ β) := by
    have e : ∀ ω, ((U 0 ω).point k).2.2 - ∑ l : Fin (k + 1), (Fin.cons τ β : Fin (k + 1) → ℝ) l * regressor ((U 0 ω).point k) l = ε ω := by
      intro ω
      rw [Fin.sum_univ_succ]
      simp only [Fin.cons_zero, Fin.cons_succ, regressor]
      have := hlin ω
      simp only [Obs.point] at this ⊢
      rw [this, Finset.sum_congr rfl fun (j : Fin k) _ => mul_comm ((U 0 ω).zv.getD j 0) (β j)]
      ring
    intro j
    simp only [e]
    refine Fin.cases ?_ (fun i => ?_) j
    · exact hx
    · exact hz i
  exact C97_estimates_converge hU h2 hy hM hb hsize h hl

/-- **C97**: nothing is subtracted for the average response. Without covariates the estimates of the mean converge, for binary exposures, to the mean
response of the exposed units, whatever the response of the others. -/
theorem C97_no_intercept {U : ℕ → Ω → Obs ℝ} {s : ℕ → Ω → ArmState (LinReg 0 ℝ) (Cell ℝ) ℝ} (hU : Iid P fun i ω => (U i ω).point 0)
    (hbin : ∀ ω, (U 0 ω).xv = 0 ∨ (U 0 ω).xv = 1) (hy : MemLp (fun ω => (U 0 ω).xv * (U 0 ω).yv) 2 P) {q : ℝ} (hq : ∫ ω, (U 0 ω).xv ∂P = q) (hq0 : q ≠ 0)
    (hsize : ∀ n, 2 ≤ size n) {δ : Fl ℝ}
    (h : ∀ᵐ ω ∂P, Streams 0 cfg ops rng (fun i => U i ω) size δ (fun n => s n ω) w (fun n => ci n ω)) (hl : ∀ᵐ ω ∂P, 0 < (s 0 ω).eta.lReg) :
    ∀ᵐ ω ∂P, EstimatesConverge (fun n => s n ω) ((∫ ω, (U 0 ω).xv * (U 0 ω).yv ∂P) / q) Var[fun ω => (U 0 ω).xv * (U 0 ω).yv / q; P] := by
  have : Subsingleton (Fin (0 + 1)) := inferInstanceAs (Subsingleton (Fin 1))
  have hsq : ∀ ω, (U 0 ω).xv * (U 0 ω).xv = (U 0 ω).xv := fun ω => by rcases hbin ω with h | h <;> rw [h] <;> norm_num
  have hm : AEMeasurable (fun ω => (U 0 ω).xv) P := (measurable_fst.comp measurable_snd).comp_aemeasurable (hU.ident 0).aemeasurable_fst
  have hx2 : MemLp (fun ω => (U 0 ω).xv) 2 P := by
    refine memLp_of_bounded (a := 0) (b := 1) (Eventually.of_forall fun ω => ?_) hm.aestronglyMeasurable 2
    rcases hbin ω with h | h <;> rw [h] <;> simp
  have hd : designMoments P (fun ω => (U 0 ω).point 0) = Matrix.of fun _ _ => q := by
    ext i j
    rw [Subsingleton.elim i 0, Subsingleton.elim j 0]
    show ∫ ω, (U 0 ω).xv * (U 0 ω).xv ∂P = q
    simp only [hsq, hq]
  have hxy : Integrable (fun ω => (U 0 ω).xv * (U 0 ω).yv) P := hy.integrable (by norm_num)
  have key := C97_estimates_converge (M := Matrix.of fun _ _ => 1 / q) (b := fun _ => (∫ ω, (U 0 ω).xv * (U 0 ω).yv ∂P) / q) hU
    (fun j => by rw [Subsingleton.elim j 0]; exact hx2) (fun j => by rw [Subsingleton.elim j 0]; exact hy)
    (by rw [hd]; ext i j; rw [Subsingleton.elim i 0, Subsingleton.elim j 0]; simp [Matrix.mul_apply, hq0]) ?_ hsize h hl
  · have e : (fun ω => regressionScore (Matrix.of fun _ _ => 1 / q : Matrix (Fin (0 + 1)) (Fin (0 + 1)) ℝ) ((U 0 ω).point 0)) = fun ω => (U 0 ω).xv * (U 0 ω).yv / q := by
      funext ω
      simp only [regressionScore, Fin.sum_univ_succ, Finset.univ_eq_empty, Finset.sum_empty, add_zero, Matrix.of_apply, regressor, Fin.cons_zero, Obs.point]
      ring
    rw [e] at key
    exact key
  · intro j
    rw [Subsingleton.elim j 0]
    simp only [Fin.sum_univ_succ, Finset.univ_eq_empty, Finset.sum_empty, add_zero]
    have e : (fun ω => regressor ((U 0 ω).point 0) 0 * (((U 0 ω).point 0).2.2 - (∫ ω, (U 0 ω).xv * (U 0 ω).yv ∂P) / q * regressor ((U 0 ω).point 0) 0)) =
        fun ω => (U 0 ω).xv * (U 0 ω).yv - (∫ ω, (U 0 ω).xv * (U 0 ω).yv ∂P) / q * (U 0 ω).xv := by
      funext ω
      show (U 0 ω).xv * ((U 0 ω).yv - _ * (U 0 ω).xv) = _
      rw [mul_sub, mul_left_comm, hsq]
    rw [e, integral_sub hxy ((hx2.integrable (by norm_num)).const_mul _), integral_const_mul, hq, div_mul_cancel₀ _ hq0, sub_self]

/-- **C97**: these updates never fail, whatever the states of the random generator, and an update draws one permutation. -/
theorem C97_updates_succeed (rng : Rng W ℝ) (hsize : ∀ n, 2 ≤ size n) {δ : ℝ} (h0 : 0 < δ) (h1 : δ < 1) (halg : cfg.alg = .clt ∨ cfg.alg = .chi2)
    (hstable : cfg.stable = true) (w : ℕ → W) (u : ℕ → Obs ℝ)
    (ht : ∀ n, ∃ d, cfg.transform d = .ok (Obs.dataset k ((List.range (size n)).map fun i => u (blockStart size n + i))))
    (hu : ∀ i, (u i).z.length = k) (s0 : ArmState (LinReg k ℝ) (Cell ℝ) ℝ) (hs : s0.split = none) (hp : s0.numPulled = 0) (hl : 0 < s0.eta.lReg) :
    ∃ s ci, s 0 = s0 ∧ Streams k cfg ops rng u size (.fin δ) s w ci ∧
      ∀ n d, cfg.transform d = .ok (Obs.dataset k ((List.range (size n)).map fun i => u (blockStart size n + i))) →
        ssUpdate cfg ops realLib rng d (.fin δ) (s n, w n) = (.ok (ci n), s (n + 1), (rng.perm (size n) (w n)).2) := by
  obtain ⟨s, ci, a, b⟩ := stream_runs (ops := ops) (k := k) rng hsize h0 h1 halg hstable (Good := fun e : LinReg k ℝ => 0 < e.lReg) (Fine := fun _ => True) (fun e he us hne _ => by
    refine ⟨_, true, fit_dataset e he us hne, rfl, he, fun _ vs _ _ => ?_⟩
    refine ⟨vs.map fun v => ∑ j : Fin (k + 1), ((us.length : ℝ) • (penalised (k := k) (us.map row) e.lReg)⁻¹) 0 j * ((row v).getD j 0 * v.yv), ?_, by simp⟩
    · show (score _ _, _) = _
      rw [score_dataset, List.map_map]
      rfl) w u ht hu (fun _ => trivial) s0 hs hp hl
  exact ⟨s, ci, a, b, fun n d hd => stream_step b n hd rng (w n) rfl⟩

end

/-! ## Non-vacuity -/

/-- a unit with covariate `c`, exposed if `c` is not negative, with response `2 x + 3 c` -/
noncomputable def demoUnit (c : ℝ) : Obs ℝ := ⟨[.flt c], .int (if c < 0 then 0 else 1), .flt (3 * c + 2 * (if c < 0 then 0 else 1))⟩

theorem demo_point (c : ℝ) : (demoUnit c).point 1 = (fun _ => c, if c < 0 then 0 else 1, 3 * c + 2 * (if c < 0 then 0 else 1)) := by
  unfold Obs.point demoUnit
  refine Prod.ext (funext fun j => ?_) (Prod.ext ?_ rfl)
  · rw [Subsingleton.elim j 0]; rfl
  · simp only [Obs.xv, Cell.val]
    split <;> simp

theorem demo_x (c : ℝ) : (demoUnit c).xv = if c < 0 then 0 else 1 := congrArg (fun q => q.2.1) (demo_point c)

theorem demo_measurable : Measurable fun c : ℝ => (demoUnit c).point 1 := by
  simp only [demo_point]
  have : Measurable fun c : ℝ => if c < 0 then (0 : ℝ) else 1 := Measurable.ite measurableSet_Iio measurable_const measurable_const
  fun_prop

theorem demo_iid : Iid (draws (threePoint 1)) fun i ω => (demoUnit (coord i ω)).point 1 := iid_coord.comp demo_measurable

def demoCfg (alg : CIAlgorithm) : SSConfig (Cell ℝ) ℝ where
  transform := .ok
  alg := alg
  stable := true
  subG := .fin 1
  etaSubG := .fin 1
  tauBound := .fin 1
  burnIn := .fin 2
  rho := .fin 1

theorem demo_integral (f : ℝ → ℝ) (hf : Measurable f) :
    ∫ ω, f (coord 0 ω) ∂draws (threePoint 1) = 1 / 4 * f (-1) + 1 / 2 * f 0 + 1 / 4 * f 1 := by
  rw [integral_coord f hf, integral_threePoint]

theorem demo_memLp (f : ℝ → ℝ) (hf : Measurable f) {C : ℝ} (hC : ∀ c ∈ Set.Icc (-1 : ℝ) 1, f c ∈ Set.Icc (-C) C) (p : ENNReal) :
    MemLp (fun ω => f (coord 0 ω)) p (draws (threePoint 1)) :=
  memLp_of_bounded ((mem_three 1 (by norm_num) 0).mono fun ω hω => hC _ hω) (hf.comp (measurable_coord 0)).aestronglyMeasurable p

noncomputable def demoInv : Matrix (Fin (1 + 1)) (Fin (1 + 1)) ℝ := !![8 / 5, -4 / 5; -4 / 5, 12 / 5]

theorem demo_regressor (c : ℝ) (j : Fin (1 + 1)) : regressor ((demoUnit c).point 1) j = if j = 0 then (if c < 0 then 0 else 1) else c := by
  rw [demo_point]
  fin_cases j
  · rfl
  · rfl

theorem demo_moments : designMoments (draws (threePoint 1)) (fun ω => (demoUnit (coord 0 ω)).point 1) = !![3 / 4, 1 / 4; 1 / 4, 1 / 2] := by
  ext i j
  have h := demo_integral (fun c => regressor ((demoUnit c).point 1) i * regressor ((demoUnit c).point 1) j)
    (((measurable_regressor i).comp demo_measurable).mul ((measurable_regressor j).comp demo_measurable))
  show ∫ ω, _ ∂_ = _
  rw [h]
  simp only [demo_regressor]
  fin_cases i <;> fin_cases j <;> norm_num

theorem demo_inv : demoInv * designMoments (draws (threePoint 1)) (fun ω => (demoUnit (coord 0 ω)).point 1) = 1 := by
  rw [demo_moments]
  ext i j
  fin_cases i <;> fin_cases j <;> norm_num [demoInv, Matrix.mul_apply, Fin.sum_univ_succ]

theorem demo_score (c : ℝ) : regressionScore demoInv ((demoUnit c).point 1) =
    (8 / 5 * (if c < 0 then 0 else 1) - 4 / 5 * c) * (3 * c + 2 * (if c < 0 then 0 else 1)) := by
  have e2 : ((demoUnit c).point 1).2.2 = 3 * c + 2 * (if c < 0 then 0 else 1) := rfl
  unfold regressionScore
  rw [Fin.sum_univ_succ, Fin.sum_univ_succ, Finset.univ_eq_empty, Finset.sum_empty, e2, demo_regressor, demo_regressor]
  simp only [demoInv, Matrix.of_apply, Matrix.cons_val_zero, Matrix.cons_val_succ, if_true, if_neg (Fin.succ_ne_zero _)]
  ring

theorem demo_var : Var[fun ω => regressionScore demoInv ((demoUnit (coord 0 ω)).point 1); draws (threePoint 1)] = 164 / 25 := by
  have hm : Measurable fun c => regressionScore demoInv ((demoUnit c).point 1) := (measurable_score _).comp demo_measurable
  have hm0 : Measurable fun ω => regressionScore demoInv ((demoUnit (coord 0 ω)).point 1) := hm.comp (measurable_coord 0)
  rw [variance_eq_integral hm0.aemeasurable, demo_integral _ hm,
    demo_integral (fun c => (regressionScore demoInv ((demoUnit c).point 1) - _) ^ 2) (by fun_prop)]
  simp only [demo_score]
  norm_num

theorem demo_bounds (c : ℝ) (hc : c ∈ Set.Icc (-1 : ℝ) 1) (j : Fin (1 + 1)) : |regressor ((demoUnit c).point 1) j| ≤ 1 ∧ |(demoUnit c).yv| ≤ 5 := by
  have hy : (demoUnit c).yv = 3 * c + 2 * (if c < 0 then 0 else 1) := rfl
  rw [demo_regressor, hy]
  obtain ⟨h1, h2⟩ := hc
  refine ⟨?_, ?_⟩ <;> rw [abs_le] <;> split_ifs <;> constructor <;> linarith

/-- non-vacuity of `C97_updates_succeed`, `C97_linear_model` and `C97_intervals_converge` (hence of `C97_estimates_converge`): for units with three
possible covariates, `tau = 2`, blocks of three units and any random generator -/
example {W : Type} (rng : Rng W ℝ) (w : ℕ → W) : ∃ (s : ℕ → (ℕ → ℝ) → ArmState (LinReg 1 ℝ) (Cell ℝ) ℝ) (ci : ℕ → (ℕ → ℝ) → Fl ℝ × Fl ℝ),
    (∀ ω, s 0 ω = init (new (1 / 10))) ∧
    (∀ ω, Streams 1 (demoCfg .clt) ops rng (fun i => demoUnit (coord i ω)) (fun _ => 3) (.fin (1 / 20)) (fun n => s n ω) w fun n => ci n ω) ∧
    (∀ᵐ ω ∂draws (threePoint 1), EstimatesConverge (fun n => s n ω) 2 (164 / 25)) ∧
    ∀ᵐ ω ∂draws (threePoint 1), IntervalsConverge (fun n => ci n ω) (164 / 25) := by
  have h := C97_updates_succeed (k := 1) (cfg := demoCfg .clt) (size := fun _ => 3) rng (by simp) (δ := 1 / 20) (by norm_num) (by norm_num)
    (Or.inl rfl) rfl w
  choose s ci h0 h1 _ using fun ω : ℕ → ℝ => h (fun i => demoUnit (coord i ω)) (fun n => ⟨_, rfl⟩) (fun i => rfl) (init (new (1 / 10))) rfl rfl (by show (0 : ℝ) < 1 / 10; norm_num)
  have hreg : ∀ j, Measurable fun c => regressor ((demoUnit c).point 1) j := fun j => (measurable_regressor j).comp demo_measurable
  have hyv : Measurable fun c => (demoUnit c).yv := (measurable_snd.comp measurable_snd).comp demo_measurable
  have m1 : ∀ j p, MemLp (fun ω => regressor ((demoUnit (coord 0 ω)).point 1) j) p (draws (threePoint 1)) := fun j p =>
    demo_memLp _ (hreg j) (C := 1) (fun c hc => abs_le.1 (demo_bounds c hc j).1) p
  have m2 : ∀ j p, MemLp (fun ω => regressor ((demoUnit (coord 0 ω)).point 1) j * (demoUnit (coord 0 ω)).yv) p (draws (threePoint 1)) := fun j p =>
    demo_memLp (fun c => regressor ((demoUnit c).point 1) j * (demoUnit c).yv) ((hreg j).mul hyv) (C := 5) (fun c hc => abs_le.1 (by
      rw [abs_mul]
      have := mul_le_mul (demo_bounds c hc j).1 (demo_bounds c hc j).2 (abs_nonneg _) zero_le_one
      linarith)) p
  have hl : ∀ᵐ ω ∂draws (threePoint 1), 0 < (s ω 0).eta.lReg := Eventually.of_forall fun ω => by rw [h0]; show (0 : ℝ) < 1 / 10; norm_num
  rw [← demo_var]
  refine ⟨fun n ω => s ω n, fun n ω => ci ω n, h0, h1, ?_, ?_⟩
  · refine C97_linear_model (U := fun i ω => demoUnit (coord i ω)) (s := fun n ω => s ω n) (ci := fun n ω => ci ω n) (M := demoInv) (τ := 2) (β := fun _ => 3) (ε := fun _ => 0) demo_iid (fun j => m1 j 2) (fun j => m2 j 2) demo_inv (fun ω => ?_) (by simp) (by simp) (by simp)
      (Eventually.of_forall h1) hl
    have e1 : (demoUnit (coord 0 ω)).yv = 3 * coord 0 ω + 2 * (if coord 0 ω < 0 then 0 else 1) := rfl
    have e2 : (demoUnit (coord 0 ω)).xv = if coord 0 ω < 0 then 0 else 1 := demo_x _
    have e3 : ∑ j : Fin 1, ((demoUnit (coord 0 ω)).point 1).1 j * 3 = coord 0 ω * 3 := by
      rw [Fin.sum_univ_one]; rfl
    rw [e1, e2, e3]
    ring
  · exact C97_intervals_converge (U := fun i ω => demoUnit (coord i ω)) (s := fun n ω => s ω n) (ci := fun n ω => ci ω n) (M := demoInv) demo_iid (fun j => m1 j 2) (fun j => m2 j 4) demo_inv (by simp) (Or.inl rfl) (Eventually.of_forall h1) hl

/-- a unit without covariates, with response 1 whether exposed or not -/
noncomputable def flatUnit (c : ℝ) : Obs ℝ := ⟨[], .int (if c < 0 then 0 else 1), .flt 1⟩

theorem flat_x (c : ℝ) : (flatUnit c).xv = if c < 0 then 0 else 1 := by
  simp only [flatUnit, Obs.xv, Cell.val]
  split <;> simp

/-- non-vacuity of `C97_no_intercept`: the response is always 1 (no effect of the exposure), the estimates converge to 1 -/
example {W : Type} (rng : Rng W ℝ) (w : ℕ → W) : ∃ (s : ℕ → (ℕ → ℝ) → ArmState (LinReg 0 ℝ) (Cell ℝ) ℝ) (ci : ℕ → (ℕ → ℝ) → Fl ℝ × Fl ℝ) (v : ℝ),
    (∀ ω, Streams 0 (demoCfg .chi2) ops rng (fun i => flatUnit (coord i ω)) (fun _ => 2) (.fin (1 / 20)) (fun n => s n ω) w fun n => ci n ω) ∧
    ∀ᵐ ω ∂draws (threePoint 1), EstimatesConverge (fun n => s n ω) 1 v := by
  have h := C97_updates_succeed (k := 0) (cfg := demoCfg .chi2) (size := fun _ => 2) rng (by simp) (δ := 1 / 20) (by norm_num) (by norm_num)
    (Or.inr rfl) rfl w
  choose s ci h0 h1 _ using fun ω : ℕ → ℝ => h (fun i => flatUnit (coord i ω)) (fun n => ⟨_, rfl⟩) (fun i => rfl) (init (new (1 / 10))) rfl rfl (by show (0 : ℝ) < 1 / 10; norm_num)
  have hx : Measurable fun c : ℝ => if c < 0 then (0 : ℝ) else 1 := Measurable.ite measurableSet_Iio measurable_const measurable_const
  have hU : Iid (draws (threePoint 1)) fun i ω => (flatUnit (coord i ω)).point 0 := by
    refine iid_coord.comp (f := fun c => (flatUnit c).point 0) ?_
    have e : (fun c => (flatUnit c).point 0) = fun c => (fun j => j.elim0, if c < 0 then (0 : ℝ) else 1, (1 : ℝ)) := by
      funext c
      exact Prod.ext (funext fun j => j.elim0) (Prod.ext (flat_x c) rfl)
    rw [e]
    exact measurable_const.prodMk (hx.prodMk measurable_const)
  have hy : ∀ c, (flatUnit c).yv = 1 := fun c => rfl
  have hq : ∫ ω, (flatUnit (coord 0 ω)).xv ∂draws (threePoint 1) = 3 / 4 := by
    simp only [flat_x]
    rw [demo_integral _ hx]
    norm_num
  have key := C97_no_intercept (U := fun i ω => flatUnit (coord i ω)) (s := fun n ω => s ω n) (ci := fun n ω => ci ω n) hU (fun ω => ?_) ?_ hq (by norm_num) (by simp)
    (Eventually.of_forall h1) (Eventually.of_forall fun ω => by rw [h0]; show (0 : ℝ) < 1 / 10; norm_num)
  · simp only [hy, mul_one, hq] at key
    rw [div_self (by norm_num)] at key
    exact ⟨fun n ω => s ω n, fun n ω => ci ω n, _, h1, key⟩
  · simp only [flat_x]; split <;> simp
  · simp only [hy, mul_one, flat_x]
    exact demo_memLp _ hx (C := 1) (fun c _ => by split <;> constructor <;> norm_num) 2

end LinReg
end Verif
