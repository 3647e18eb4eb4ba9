import Verif.Lemmas.SklearnExists
import Verif.Lemmas.AipwLimit

/-!
# Ridge regression with an intercept
-/

set_option linter.unusedSectionVars false
set_option linter.unusedSimpArgs false

namespace Verif
open MeasureTheory ProbabilityTheory Filter Topology Arm Param

/-! ## The objective has a minimiser -/

section
variable {d : ℕ}

theorem affineValue_continuous (r : List ℝ) : Continuous fun θ : Fin (d + 1) → ℝ => affineValue θ r := by
  unfold affineValue linearValue
  fun_prop

theorem affineValue_combo (r : List ℝ) (a b : ℝ) (θ t : Fin (d + 1) → ℝ) : affineValue (a • θ + b • t) r = a * affineValue θ r + b * affineValue t r := by
  unfold affineValue linearValue
  simp only [Pi.add_apply, Pi.smul_apply, smul_eq_mul, add_mul, Finset.sum_add_distrib, mul_add, Finset.mul_sum, mul_assoc]
  ring

/-- the objective of ridge regression with an intercept has a minimiser -/
theorem exists_ridgeIntercept {alpha : ℝ} (ha : 0 < alpha) {rows : List (List ℝ)} {ys : List ℝ} (hlen : rows.length = ys.length) (hne : rows ≠ []) :
    ∃ θ : Fin (d + 1) → ℝ, ∀ t : Fin (d + 1) → ℝ, ridgeInterceptObjective alpha rows ys θ ≤ ridgeInterceptObjective alpha rows ys t := by
  have hs0 : ∀ θ : Fin (d + 1) → ℝ, 0 ≤ ((rows.zip ys).map fun q => (q.2 - affineValue θ q.1) ^ 2).sum := fun θ => List.sum_nonneg (by
    intro x hx
    obtain ⟨q, -, rfl⟩ := List.mem_map.1 hx
    exact sq_nonneg _)
  have hp0 : ∀ θ : Fin (d + 1) → ℝ, 0 ≤ ∑ j : Fin d, θ j.succ ^ 2 := fun θ => Finset.sum_nonneg fun j _ => sq_nonneg _
  refine exists_argmin ?_ ?_ (0 : Fin (d + 1) → ℝ) fun v hv => ?_
  · refine ConvexOn.add (listSum_convex _ _ fun q => ?_) ?_
    · refine ⟨convex_univ, fun θ _ t _ a b h1 h2 hab => ?_⟩
      simp only [smul_eq_mul, affineValue_combo]
      have hb' : b = 1 - a := by linarith
      subst hb'
      nlinarith [mul_nonneg (mul_nonneg h1 h2) (sq_nonneg (affineValue θ q.1 - affineValue t q.1))]
    · refine ⟨convex_univ, fun θ _ t _ a b h1 h2 hab => ?_⟩
      have := (halfsq_convex (d := d)).2 (Set.mem_univ θ) (Set.mem_univ t) h1 h2 hab
      simp only [smul_eq_mul] at this ⊢
      nlinarith [mul_le_mul_of_nonneg_left this ha.le]
  · unfold ridgeInterceptObjective
    refine (listSum_continuous _ _ fun q => ?_).add (by fun_prop)
    exact (continuous_const.sub (affineValue_continuous q.1)).pow 2
  simp only [zero_add]
  set G0 : ℝ := ridgeInterceptObjective alpha rows ys (0 : Fin (d + 1) → ℝ) with hG0
  have hG0n : 0 ≤ G0 := add_nonneg (hs0 0) (mul_nonneg ha.le (hp0 0))
  by_cases hs : ∃ j : Fin d, v j.succ ≠ 0
  · obtain ⟨j, hj⟩ := hs
    have hc0 : 0 < alpha * v j.succ ^ 2 := mul_pos ha (by positivity)
    refine ⟨1 + G0 / (alpha * v j.succ ^ 2), by positivity, ?_⟩
    set s := 1 + G0 / (alpha * v j.succ ^ 2) with hsdef
    have h1 : (s • v) j.succ ^ 2 ≤ ∑ j : Fin d, (s • v) j.succ ^ 2 :=
      Finset.single_le_sum (f := fun j : Fin d => (s • v) j.succ ^ 2) (fun i _ => sq_nonneg _) (Finset.mem_univ j)
    have h2 : (s • v) j.succ ^ 2 = s ^ 2 * v j.succ ^ 2 := by simp only [Pi.smul_apply, smul_eq_mul]; ring
    have h3 : s * (alpha * v j.succ ^ 2) = alpha * v j.succ ^ 2 + G0 := by
      rw [hsdef, add_mul, one_mul, div_mul_cancel₀ _ hc0.ne']
    have h4 : 1 ≤ s := by
      have : 0 ≤ G0 / (alpha * v j.succ ^ 2) := by positivity
      linarith
    have h5 := mul_le_mul_of_nonneg_left h1 ha.le
    have h6 := hs0 (s • v)
    unfold ridgeInterceptObjective
    nlinarith
  · push Not at hs
    have hv0 : v 0 ≠ 0 := by
      intro h
      apply hv
      funext j
      exact Fin.cases h (fun i => hs i) j
    obtain ⟨r, rows', rfl⟩ := List.exists_cons_of_ne_nil hne
    obtain ⟨y, ys', rfl⟩ : ∃ y ys', ys = y :: ys' := by
      cases ys with
      | nil => simp at hlen
      | cons y ys' => exact ⟨y, ys', rfl⟩
    refine ⟨(|y| + G0 + 1) / |v 0|, by positivity, ?_⟩
    set s := (|y| + G0 + 1) / |v 0| with hsdef
    have hval : affineValue (s • v) r = s * v 0 := by
      unfold affineValue linearValue
      simp [hs]
    have h1 : |s * v 0| = |y| + G0 + 1 := by
      rw [abs_mul, hsdef, abs_of_nonneg (by positivity), div_mul_cancel₀ _ (abs_pos.2 hv0).ne']
    have h2 : (G0 + 1) ^ 2 ≤ (y - affineValue (s • v) r) ^ 2 := by
      rw [hval]
      refine sq_le_sq.2 ?_
      rw [abs_of_nonneg (by linarith : 0 ≤ G0 + 1)]
      have := abs_sub_abs_le_abs_sub (s * v 0) y
      rw [abs_sub_comm y]
      linarith
    have h3 := List.single_le_sum (l := ((r :: rows').zip (y :: ys')).map fun q => (q.2 - affineValue (s • v) q.1) ^ 2) (by
        intro x hx
        obtain ⟨q, -, rfl⟩ := List.mem_map.1 hx
        exact sq_nonneg _) ((y - affineValue (s • v) r) ^ 2) (by simp)
    have h4 := mul_nonneg ha.le (hp0 (s • v))
    unfold ridgeInterceptObjective
    nlinarith

end

/-- a ridge regression with an intercept -/
noncomputable def idealRidgeIntercept (alpha : ℝ) : Predictor (List ℝ → ℝ) ℝ where
  fit _ rows ys := (.ok (), affineValue (Classical.epsilon fun b : Fin ((rows.headD []).length + 1) → ℝ =>
    ∀ c : Fin ((rows.headD []).length + 1) → ℝ, ridgeInterceptObjective alpha rows ys b ≤ ridgeInterceptObjective alpha rows ys c))
  predict f r := f r
  clone _ := fun _ => 0

theorem idealRidgeIntercept_isRidge {alpha : ℝ} (ha : 0 < alpha) : (idealRidgeIntercept alpha).IsRidgeIntercept (fun _ => True) alpha := by
  intro m d rows ys _ _ hne hlen hd
  have hh : (rows.headD []).length = d := by
    cases rows with
    | nil => exact absurd rfl hne
    | cons r rows => exact hd r (by simp)
  subst hh
  exact ⟨_, _, rfl, trivial, fun r _ => rfl, Classical.epsilon_spec (exists_ridgeIntercept ha hlen hne)⟩

/-! ## Normal equations -/

section
variable {T : Type} {d : ℕ}

/-- a minimiser of a penalised sum of squares solves the normal equations -/
theorem normal_equations (us : List T) (φ : T → Fin d → ℝ) (y : T → ℝ) (D : Fin d → ℝ) (hD : ∀ j, 0 ≤ D j) {θ : Fin d → ℝ}
    (hmin : ∀ t : Fin d → ℝ, (us.map fun u => (y u - ∑ l, θ l * φ u l) ^ 2).sum + ∑ l, D l * θ l ^ 2 ≤
      (us.map fun u => (y u - ∑ l, t l * φ u l) ^ 2).sum + ∑ l, D l * t l ^ 2) (j : Fin d) :
    (us.map fun u => φ u j * (y u - ∑ l, θ l * φ u l)).sum = D j * θ j := by
  have hq0 : 0 ≤ (us.map fun u => φ u j ^ 2).sum + D j := by
    refine add_nonneg (List.sum_nonneg ?_) (hD j)
    intro x hx
    obtain ⟨q, -, rfl⟩ := List.mem_map.1 hx
    exact sq_nonneg _
  have key : ∀ ε : ℝ, 0 ≤ -2 * ε * ((us.map fun u => φ u j * (y u - ∑ l, θ l * φ u l)).sum - D j * θ j) + ε ^ 2 * ((us.map fun u => φ u j ^ 2).sum + D j) := by
    intro ε
    have h := hmin fun l => θ l + if l = j then ε else 0
    have e1 : ∀ u, ∑ l, (θ l + if l = j then ε else 0) * φ u l = ∑ l, θ l * φ u l + ε * φ u j := by
      intro u
      simp [add_mul, Finset.sum_add_distrib]
    have e2 : ∑ l, D l * (θ l + if l = j then ε else 0) ^ 2 = ∑ l, D l * θ l ^ 2 + (2 * ε * (D j * θ j) + ε ^ 2 * D j) := by
      have : ∀ l, D l * (θ l + if l = j then ε else 0) ^ 2 = D l * θ l ^ 2 + if l = j then 2 * ε * (D j * θ j) + ε ^ 2 * D j else 0 := by
        intro l
        by_cases hl : l = j
        · subst hl; simp; ring
        · simp [hl]
      simp only [this, Finset.sum_add_distrib, Finset.sum_ite_eq', Finset.mem_univ, if_true]
    have e3 : (us.map fun u => (y u - ∑ l, (θ l + if l = j then ε else 0) * φ u l) ^ 2).sum = (us.map fun u => (y u - ∑ l, θ l * φ u l) ^ 2).sum
        + (-2 * ε * (us.map fun u => φ u j * (y u - ∑ l, θ l * φ u l)).sum + ε ^ 2 * (us.map fun u => φ u j ^ 2).sum) := by
      simp only [e1]
      clear h hmin hq0 e2
      induction us with
      | nil => simp
      | cons u us ih =>
        simp only [List.map_cons, List.sum_cons, ih]
        ring
    rw [e2, e3] at h
    linarith
  rw [← sub_eq_zero]
  generalize (us.map fun u => φ u j * (y u - ∑ l, θ l * φ u l)).sum - D j * θ j = g at key ⊢
  generalize (us.map fun u => φ u j ^ 2).sum + D j = q at key hq0
  have h := key (g / (q + 1))
  have h1 : 0 < q + 1 := by linarith
  have h2 : -2 * (g / (q + 1)) * g + (g / (q + 1)) ^ 2 * q = -(g ^ 2 * (q + 2)) / (q + 1) ^ 2 := by
    field_simp
    ring
  rw [h2, le_div_iff₀ (by positivity), zero_mul] at h
  by_contra hg
  have : 0 < g ^ 2 * (q + 2) := by positivity
  linarith

/-- solutions of linear equations converge with the equations -/
theorem solutions_tendsto {A : ℕ → Matrix (Fin d) (Fin d) ℝ} {B : Matrix (Fin d) (Fin d) ℝ} (hA : Tendsto A atTop (𝓝 B)) (hB : B.det ≠ 0)
    {r : ℕ → Fin d → ℝ} {b : Fin d → ℝ} (hr : Tendsto r atTop (𝓝 (B.mulVec b))) {θ : ℕ → Fin d → ℝ} (hθ : ∀ᶠ n in atTop, (A n).mulVec (θ n) = r n) :
    Tendsto θ atTop (𝓝 b) := by
  have h1 := LinReg.tendsto_inv hA hB
  have hdet : ∀ᶠ n in atTop, (A n).det ≠ 0 := ((continuous_id.matrix_det.tendsto B).comp hA).eventually_ne hB
  have h2 : Tendsto (fun n => (A n)⁻¹.mulVec (r n)) atTop (𝓝 (B⁻¹.mulVec (B.mulVec b))) := by
    refine tendsto_pi_nhds.2 fun i => ?_
    simp only [Matrix.mulVec, dotProduct]
    exact tendsto_finsetSum _ fun j _ => ((tendsto_pi_nhds.1 (tendsto_pi_nhds.1 h1 i)) j).mul (tendsto_pi_nhds.1 hr j)
  rw [Matrix.mulVec_mulVec, Matrix.nonsing_inv_mul _ (Ne.isUnit hB), Matrix.one_mulVec] at h2
  refine h2.congr' ?_
  filter_upwards [hθ, hdet] with n h3 h4
  rw [← h3, Matrix.mulVec_mulVec, Matrix.nonsing_inv_mul _ (Ne.isUnit h4), Matrix.one_mulVec]

/-- minimisers of penalised sums of squares converge when the moments of the sample converge -/
theorem minimisers_tendsto {us : ℕ → List T} (hlen : Tendsto (fun n => (us n).length) atTop atTop) (φ : T → Fin d → ℝ) (y : T → ℝ) {D : Fin d → ℝ} (hD : ∀ j, 0 ≤ D j)
    {B : Matrix (Fin d) (Fin d) ℝ} (hB : B.det ≠ 0) (h1 : ∀ i j, Tendsto (fun n => pmean ((us n).map fun u => φ u i * φ u j)) atTop (𝓝 (B i j))) {b : Fin d → ℝ}
    (h3 : ∀ j, Tendsto (fun n => pmean ((us n).map fun u => φ u j * y u)) atTop (𝓝 (B.mulVec b j))) {θ : ℕ → Fin d → ℝ}
    (hθ : ∀ᶠ n in atTop, ∀ t : Fin d → ℝ, ((us n).map fun u => (y u - ∑ l, θ n l * φ u l) ^ 2).sum + ∑ l, D l * θ n l ^ 2 ≤
      ((us n).map fun u => (y u - ∑ l, t l * φ u l) ^ 2).sum + ∑ l, D l * t l ^ 2) : Tendsto θ atTop (𝓝 b) := by
  have hlen1 : Tendsto (fun n => ((us n).length : ℝ)) atTop atTop := tendsto_natCast_atTop_atTop.comp hlen
  have hA : Tendsto (fun n => Matrix.of (fun i j => pmean ((us n).map fun u => φ u i * φ u j)) + Matrix.diagonal fun l => D l / ((us n).length : ℝ)) atTop (𝓝 B) := by
    refine tendsto_pi_nhds.2 fun i => tendsto_pi_nhds.2 fun j => ?_
    have : Tendsto (fun n => (Matrix.diagonal fun l => D l / ((us n).length : ℝ)) i j) atTop (𝓝 0) := by
      by_cases hij : i = j
      · subst hij; simpa using (tendsto_const_nhds (x := D i)).div_atTop hlen1
      · simp [Matrix.diagonal_apply_ne _ hij]
    simpa using (h1 i j).add this
  refine solutions_tendsto hA hB (r := fun n j => pmean ((us n).map fun u => φ u j * y u)) (tendsto_pi_nhds.2 h3) ?_
  filter_upwards [hθ, hlen1.eventually_ge_atTop 1] with n h4 h5
  have hn : ((us n).length : ℝ) ≠ 0 := by linarith
  funext j
  have h6 := normal_equations (us n) φ y D hD h4 j
  rw [Matrix.add_mulVec, Pi.add_apply, Matrix.mulVec_diagonal]
  simp only [Matrix.mulVec, dotProduct, Matrix.of_apply]
  have h7 : ∑ l, pmean ((us n).map fun u => φ u j * φ u l) * θ n l = pmean ((us n).map fun u => φ u j * ∑ l, θ n l * φ u l) := by
    unfold pmean
    simp only [List.length_map, div_mul_eq_mul_div, ← Finset.sum_div]
    congr 1
    simp only [← List.sum_map_mul_right]
    clear h6 h4 h5 hn
    induction us n with
    | nil => simp
    | cons a l ih =>
      simp only [List.map_cons, List.sum_cons, Finset.sum_add_distrib, ih, Finset.mul_sum]
      congr 1
      exact Finset.sum_congr rfl fun i _ => by ring
  have h8 : D j / ((us n).length : ℝ) * θ n j = pmean ((us n).map fun u => φ u j * (y u - ∑ l, θ n l * φ u l)) := by
    unfold pmean
    rw [List.length_map, h6]
    ring
  rw [h7, h8, ← pmean_add']
  congr 1
  exact List.map_congr_left fun a _ => by ring

end

/-! ## Convergence -/

section
variable {k : ℕ}

/-- the unit with its exposure as a covariate, and with exposure 1 -/
def augment (p : (Fin k → ℝ) × ℝ × ℝ) : (Fin (k + 1) → ℝ) × ℝ × ℝ := (Fin.cons p.2.1 p.1, 1, p.2.2)

theorem regressor_augment (p : (Fin k → ℝ) × ℝ × ℝ) : regressor (augment p) = affineRegressor p := rfl

theorem measurable_affineRegressor (j : Fin (k + 2)) : Measurable fun p : (Fin k → ℝ) × ℝ × ℝ => affineRegressor p j := by
  refine Fin.cases ?_ (fun i => ?_) j
  · simp only [affineRegressor, Fin.cons_zero]; exact measurable_const
  · simp only [affineRegressor, Fin.cons_succ]; exact LinReg.measurable_regressor i

/-- the weights of the penalty: none for the intercept -/
noncomputable def penalty (lam : ℝ) : Fin (k + 2) → ℝ := Fin.cons 0 fun _ => lam

theorem penalty_nonneg {lam : ℝ} (hl : 0 ≤ lam) (j : Fin (k + 2)) : 0 ≤ penalty lam j := Fin.cases le_rfl (fun _ => hl) j

/-- the objective for units -/
noncomputable def interceptLoss (us : List (Obs ℝ)) (lam : ℝ) (θ : Fin (k + 2) → ℝ) : ℝ :=
  (us.map fun u => (u.yv - ∑ l, θ l * affineRegressor (u.point k) l) ^ 2).sum + ∑ l, penalty lam l * θ l ^ 2

theorem affineValue_row (θ : Fin (k + 2) → ℝ) (u : Obs ℝ) (x : ℝ) :
    affineValue θ (x :: u.zv) = θ 0 + θ 1 * x + ∑ j : Fin k, θ j.succ.succ * (u.point k).1 j := by
  unfold affineValue
  rw [linearValue_row]
  exact (add_assoc _ _ _).symm

theorem affineRegressor_dot (θ : Fin (k + 2) → ℝ) (p : (Fin k → ℝ) × ℝ × ℝ) :
    ∑ l, θ l * affineRegressor p l = θ 0 + θ 1 * p.2.1 + ∑ j : Fin k, θ j.succ.succ * p.1 j := by
  rw [Fin.sum_univ_succ, Fin.sum_univ_succ, ← add_assoc]
  simp [affineRegressor, regressor]

theorem interceptObjective_units (us : List (Obs ℝ)) (lam : ℝ) (θ : Fin (k + 2) → ℝ) :
    ridgeInterceptObjective lam (us.map fun u => u.xv :: u.zv) (us.map Obs.yv) θ = interceptLoss us lam θ := by
  unfold ridgeInterceptObjective interceptLoss
  rw [List.zip_map', List.map_map]
  simp only [Function.comp_def, affineValue_row, affineRegressor_dot]
  have : ∑ l, penalty lam l * θ l ^ 2 = lam * ∑ j : Fin (k + 1), θ j.succ ^ 2 := by
    rw [Fin.sum_univ_succ, Finset.mul_sum]
    simp only [penalty, Fin.cons_zero, Fin.cons_succ, zero_mul, zero_add]
  rw [this]
  rfl

variable {Ω W : Type} [MeasurableSpace Ω] {P : Measure Ω} [IsProbabilityMeasure P]

/-- the second moments of a nondegenerate design are invertible -/
theorem Nondegenerate.moments_det {V : Ω → (Fin k → ℝ) × ℝ × ℝ} (hnd : Nondegenerate P fun ω => regressor (V ω)) (h2 : ∀ j, MemLp (fun ω => regressor (V ω) j) 2 P) :
    (designMoments P V).det ≠ 0 := by
  obtain ⟨M, hM⟩ := hnd.exists_inverse h2
  intro h0
  have := congrArg Matrix.det hM
  rw [Matrix.det_mul, h0] at this
  simp at this

/-- the equations of the least-squares coefficients -/
theorem LeastSquares.moments {V : Ω → (Fin k → ℝ) × ℝ × ℝ} {b : Fin (k + 1) → ℝ} (hb : LeastSquares P V b) (h2 : ∀ j, MemLp (fun ω => regressor (V ω) j) 2 P)
    (hy : MemLp (fun ω => (V ω).2.2) 2 P) (j : Fin (k + 1)) : ∫ ω, regressor (V ω) j * (V ω).2.2 ∂P = (designMoments P V).mulVec b j := by
  have hint : ∀ i j, Integrable (fun ω => regressor (V ω) i * regressor (V ω) j) P := fun i j => (h2 i).integrable_mul (h2 j)
  have hyi : ∀ j, Integrable (fun ω => regressor (V ω) j * (V ω).2.2) P := fun j => (h2 j).integrable_mul hy
  have h := hb j
  have e : (fun ω => regressor (V ω) j * ((V ω).2.2 - ∑ l, b l * regressor (V ω) l)) =
      fun ω => regressor (V ω) j * (V ω).2.2 - ∑ l, regressor (V ω) j * regressor (V ω) l * b l := by
    funext ω
    rw [mul_sub, Finset.mul_sum]
    exact congrArg _ (Finset.sum_congr rfl fun l _ => by ring)
  rw [e, integral_sub (hyi j) (integrable_finsetSum _ fun l _ => (hint j l).mul_const _), integral_finsetSum _ fun l _ => (hint j l).mul_const _,
    sub_eq_zero] at h
  rw [h]
  exact Finset.sum_congr rfl fun l _ => integral_mul_const _ _

/-- minimisers of the objective converge to the least-squares coefficients -/
theorem intercept_tendsto {U : ℕ → Ω → Obs ℝ} (hU : Iid P fun i ω => (U i ω).point k) (h2 : ∀ j, MemLp (fun ω => affineRegressor ((U 0 ω).point k) j) 2 P)
    (hy : MemLp (fun ω => (U 0 ω).yv) 2 P) (hnd : Nondegenerate P fun ω => affineRegressor ((U 0 ω).point k)) {b : Fin (k + 2) → ℝ}
    (hb : LeastSquaresIntercept P (fun ω => (U 0 ω).point k) b) (rng : Rng W ℝ) {size : ℕ → ℕ} (hsize : ∀ n, 2 ≤ size n) (w : ℕ → W) {lam : ℝ} (hl : 0 ≤ lam) :
    ∀ᵐ ω ∂P, ∀ θ : ℕ → Fin (k + 2) → ℝ, (∀ᶠ n in atTop, ∀ t : Fin (k + 2) → ℝ, interceptLoss ((foldIdx rng size w 0 n).map fun i => U i ω) lam (θ n) ≤
      interceptLoss ((foldIdx rng size w 0 n).map fun i => U i ω) lam t) → Tendsto θ atTop (𝓝 b) := by
  have hint : ∀ i j, Integrable (fun ω => affineRegressor ((U 0 ω).point k) i * affineRegressor ((U 0 ω).point k) j) P := fun i j => (h2 i).integrable_mul (h2 j)
  have hyi : ∀ j, Integrable (fun ω => affineRegressor ((U 0 ω).point k) j * (U 0 ω).yv) P := fun j => (h2 j).integrable_mul hy
  set B := designMoments P (fun ω => augment ((U 0 ω).point k)) with hB
  have hdet : B.det ≠ 0 := Nondegenerate.moments_det (V := fun ω => augment ((U 0 ω).point k)) hnd h2
  have hs : ∀ᵐ ω ∂P, ∀ i j, Tendsto (fun n => pmean ((foldIdx rng size w 0 n).map fun a => affineRegressor ((U a ω).point k) i * affineRegressor ((U a ω).point k) j)) atTop
      (𝓝 (B i j)) := by
    rw [ae_all_iff]; intro i
    rw [ae_all_iff]; intro j
    exact fold_slln hU rng size w (by omega) hsize (g := fun p => affineRegressor p i * affineRegressor p j)
      ((measurable_affineRegressor i).mul (measurable_affineRegressor j)) (hint i j)
  have hs2 : ∀ᵐ ω ∂P, ∀ j, Tendsto (fun n => pmean ((foldIdx rng size w 0 n).map fun a => affineRegressor ((U a ω).point k) j * (U a ω).yv)) atTop
      (𝓝 (∫ ω, affineRegressor ((U 0 ω).point k) j * (U 0 ω).yv ∂P)) := by
    rw [ae_all_iff]; intro j
    exact fold_slln hU rng size w (by omega) hsize (g := fun p => affineRegressor p j * p.2.2) ((measurable_affineRegressor j).mul (by fun_prop)) (hyi j)
  filter_upwards [hs, hs2] with ω h1 h3
  intro θ hθ
  refine minimisers_tendsto (us := fun n => (foldIdx rng size w 0 n).map fun i => U i ω) (by simpa using foldIdx_atTop rng size w (by omega) hsize)
    (fun u => affineRegressor (u.point k)) Obs.yv (penalty_nonneg hl) hdet (fun i j => ?_) (fun j => ?_) hθ
  · simpa only [List.map_map, Function.comp_def] using h1 i j
  · rw [← LeastSquares.moments (V := fun ω => augment ((U 0 ω).point k)) hb h2 hy j]
    simp only [List.map_map, Function.comp_def]
    exact h3 j

/-- the least-squares coefficients exist -/
theorem exists_leastSquaresIntercept {V : Ω → (Fin k → ℝ) × ℝ × ℝ} (h : Nondegenerate P fun ω => affineRegressor (V ω))
    (h2 : ∀ j, MemLp (fun ω => affineRegressor (V ω) j) 2 P) (hy : MemLp (fun ω => (V ω).2.2) 2 P) : ∃ b, LeastSquaresIntercept P V b :=
  Nondegenerate.exists_leastSquares (V := fun ω => augment (V ω)) h h2 hy

end

end Verif
