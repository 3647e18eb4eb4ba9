import Verif.Lemmas.AipwLimit

/-!
# Arms with AIPW parameters: the scores approach their limits
-/

set_option linter.unusedSectionVars false
set_option linter.unusedSimpArgs false

namespace Verif
open MeasureTheory ProbabilityTheory Filter Topology Arm Param
open scoped ENNReal

/-! ## Measurability and moments of the score -/

section
variable {Ω : Type} [MeasurableSpace Ω] {P : Measure Ω} [IsProbabilityMeasure P] {k : ℕ} {κ : ℝ} {V : Ω → (Fin k → ℝ) × ℝ × ℝ}

theorem measurable_clipped (κ : ℝ) (θ : Fin (k + 1) → ℝ) : Measurable (clippedPropensity κ θ) :=
  ((continuous_sigmoid.measurable.comp (measurable_dot θ)).max measurable_const).min measurable_const

theorem measurable_residual (b : Fin (k + 1) → ℝ) : Measurable fun p : (Fin k → ℝ) × ℝ × ℝ => p.2.2 - ∑ j, b j * regressor p j := by
  have h : Measurable fun p : (Fin k → ℝ) × ℝ × ℝ => ∑ j, b j * regressor p j :=
    Finset.measurable_fun_sum _ fun j _ => (LinReg.measurable_regressor j).const_mul _
  fun_prop

theorem measurable_weight (κ : ℝ) (θ : Fin (k + 1) → ℝ) :
    Measurable fun p : (Fin k → ℝ) × ℝ × ℝ => p.2.1 / clippedPropensity κ θ p - (1 - p.2.1) / (1 - clippedPropensity κ θ p) := by
  have := measurable_clipped (k := k) κ θ
  fun_prop

theorem measurable_aipwPoint (κ : ℝ) (b θ : Fin (k + 1) → ℝ) : Measurable (aipwPoint κ b θ : (Fin k → ℝ) × ℝ × ℝ → ℝ) :=
  measurable_const.add ((measurable_residual b).mul (measurable_weight κ θ))

theorem measurable_aipwEnvelope (κ : ℝ) (b : Fin (k + 1) → ℝ) : Measurable (aipwEnvelope κ b : (Fin k → ℝ) × ℝ × ℝ → ℝ) := by
  have := measurable_residual (k := k) b
  unfold aipwEnvelope
  fun_prop

theorem envelope_nonneg (h0 : 0 < κ) (b : Fin (k + 1) → ℝ) (p : (Fin k → ℝ) × ℝ × ℝ) : 0 ≤ aipwEnvelope κ b p := by
  unfold aipwEnvelope
  have : 0 ≤ ∑ j, |p.1 j| := Finset.sum_nonneg fun j _ => abs_nonneg _
  positivity

theorem weight_le (h0 : 0 < κ) (h1 : κ ≤ 1 / 2) (θ : Fin (k + 1) → ℝ) (p : (Fin k → ℝ) × ℝ × ℝ) (hp : p.2.1 = 0 ∨ p.2.1 = 1) :
    |p.2.1 / clippedPropensity κ θ p - (1 - p.2.1) / (1 - clippedPropensity κ θ p)| ≤ 1 / κ := by
  obtain ⟨e1, e2⟩ := clipped_mem h1 θ p
  rcases hp with hx | hx
  · rw [hx, zero_div, zero_sub, sub_zero, abs_neg, abs_of_pos (by apply div_pos one_pos; linarith)]
    exact one_div_le_one_div_of_le h0 (by linarith)
  · rw [hx, sub_self, zero_div, sub_zero, abs_of_pos (by apply div_pos one_pos; linarith)]
    exact one_div_le_one_div_of_le h0 e1

theorem binary_memLp (hV : AEMeasurable V P) (hbin : ∀ᵐ ω ∂P, (V ω).2.1 = 0 ∨ (V ω).2.1 = 1) (p : ℝ≥0∞) : MemLp (fun ω => (V ω).2.1) p P := by
  refine memLp_of_bounded (a := 0) (b := 1) ?_ hV.snd.fst.aestronglyMeasurable p
  filter_upwards [hbin] with ω h
  rcases h with h | h <;> rw [h] <;> simp

theorem regressor_memLp (hV : AEMeasurable V P) (hbin : ∀ᵐ ω ∂P, (V ω).2.1 = 0 ∨ (V ω).2.1 = 1) {p : ℝ≥0∞} (hz : ∀ j, MemLp (fun ω => (V ω).1 j) p P)
    (j : Fin (k + 1)) : MemLp (fun ω => regressor (V ω) j) p P := by
  refine Fin.cases ?_ (fun i => ?_) j
  · simp only [regressor, Fin.cons_zero]; exact binary_memLp hV hbin p
  · simp only [regressor, Fin.cons_succ]; exact hz i

theorem residual_memLp (hV : AEMeasurable V P) (hbin : ∀ᵐ ω ∂P, (V ω).2.1 = 0 ∨ (V ω).2.1 = 1) {p : ℝ≥0∞} (hz : ∀ j, MemLp (fun ω => (V ω).1 j) p P)
    (hy : MemLp (fun ω => (V ω).2.2) p P) (b : Fin (k + 1) → ℝ) : MemLp (fun ω => (V ω).2.2 - ∑ j, b j * regressor (V ω) j) p P :=
  hy.sub (memLp_finsetSum _ fun j _ => (regressor_memLp hV hbin hz j).const_mul _)

theorem aipwPoint_memLp (hV : AEMeasurable V P) (hbin : ∀ᵐ ω ∂P, (V ω).2.1 = 0 ∨ (V ω).2.1 = 1) {p : ℝ≥0∞} (hz : ∀ j, MemLp (fun ω => (V ω).1 j) p P)
    (hy : MemLp (fun ω => (V ω).2.2) p P) (h0 : 0 < κ) (h1 : κ ≤ 1 / 2) (b θ : Fin (k + 1) → ℝ) : MemLp (fun ω => aipwPoint κ b θ (V ω)) p P := by
  refine (memLp_const (b 0)).add ?_
  refine MemLp.of_le_mul (c := 1 / κ) (residual_memLp hV hbin hz hy b)
    (((measurable_residual b).mul (measurable_weight κ θ)).comp_aemeasurable hV).aestronglyMeasurable ?_
  filter_upwards [hbin] with ω h
  rw [norm_mul, mul_comm]
  exact mul_le_mul_of_nonneg_right (weight_le h0 h1 θ _ h) (norm_nonneg _)

theorem size_memLp {q : ℝ≥0∞} (hz : ∀ j, MemLp (fun ω => (V ω).1 j) q P) : MemLp (fun ω => 1 + ∑ j, |(V ω).1 j|) q P := by
  have hsum : MemLp (fun ω => ∑ j, |(V ω).1 j|) q P := memLp_finsetSum Finset.univ (f := fun j ω => |(V ω).1 j|) fun j _ => (hz j).abs
  exact (memLp_const (1 : ℝ)).add hsum

theorem envelope_memLp {p q : ℝ≥0∞} [ENNReal.HolderTriple q q p] (hpq : p ≤ q) {S r : Ω → ℝ} (hS : MemLp S q P) (hr : MemLp r q P) (c d : ℝ) :
    MemLp (fun ω => 1 + S ω / c + |r ω| * S ω / d) p P := by
  have h1 : MemLp (fun ω => S ω / c) p P := by
    simpa only [div_eq_mul_inv] using (hS.mono_exponent hpq).mul_const c⁻¹
  have h2 : MemLp (fun ω => |r ω| * S ω) p P := hS.mul' hr.abs
  have h3 : MemLp (fun ω => |r ω| * S ω / d) p P := by
    simpa only [div_eq_mul_inv] using h2.mul_const d⁻¹
  exact ((memLp_const (1 : ℝ)).add h1).add h3

theorem aipwEnvelope_memLp (hV : AEMeasurable V P) (hbin : ∀ᵐ ω ∂P, (V ω).2.1 = 0 ∨ (V ω).2.1 = 1) {p q : ℝ≥0∞} [ENNReal.HolderTriple q q p] (hpq : p ≤ q)
    (hz : ∀ j, MemLp (fun ω => (V ω).1 j) q P)
    (hy : MemLp (fun ω => (V ω).2.2) q P) (b : Fin (k + 1) → ℝ) : MemLp (fun ω => aipwEnvelope κ b (V ω)) p P :=
  envelope_memLp hpq (size_memLp hz) (residual_memLp hV hbin hz hy b) κ (κ ^ 2)

end

/-! ## Streams -/

namespace AIPW
variable {Ω M Q W : Type} [MeasurableSpace Ω] {P : Measure Ω} [IsProbabilityMeasure P] {k : ℕ} {R : Predictor M ℝ} {C : Predictor Q ℝ}
  {SR : M → Prop} {SC : Q → Prop} {lam κ : ℝ} {μ : ℤ} {cfg : SSConfig (Cell ℝ) ℝ} {rng : Rng W ℝ} {size : ℕ → ℕ} {w : ℕ → W} {δ : Fl ℝ}

theorem pure_score (e : AIPW M Q ℝ) (d : ExpData (Cell ℝ)) : ((ops R C).score e d).2 = e := rfl

theorem repeatable : ScoreRepeatable (ops R C) := fun _ _ => rfl

theorem fold_units {u : ℕ → Obs ℝ} (hsize : ∀ n, 2 ≤ size n) (f : ℕ) (hf : f < 2) (n : ℕ) : (foldIdx rng size w f (n + 1)).map u ≠ [] := by
  intro h0
  have := foldIdx_length rng size w (f := f) hf hsize (n + 1)
  rw [List.map_eq_nil_iff.1 h0] at this
  simp at this

theorem stream_regular (hk0 : 0 < k) (hR : R.IsRidge SR lam) (hC : C.IsLogistic SC) (hμ : 1 ≤ μ) {u : ℕ → Obs ℝ} (hsize : ∀ n, 2 ≤ size n)
    {s : ℕ → ArmState (AIPW M Q ℝ) (Cell ℝ) ℝ} {ci : ℕ → Fl ℝ × Fl ℝ} (h : Streams k cfg (ops R C) rng u size δ s w ci)
    (h0 : Regular k SR SC μ κ (s 0).eta) (hbin : ∀ i, (u i).Binary) (n : ℕ) :
    Regular k SR SC μ κ (s n).eta ∧
      (μ ≤ Obs.treated ((foldIdx rng size w 0 (n + 1)).map u) ∧ μ ≤ Obs.control ((foldIdx rng size w 0 (n + 1)).map u) →
        ∃ b θ, FittedOn R C k lam ((foldIdx rng size w 0 (n + 1)).map u) (s (n + 1)).eta b θ) := by
  have hstep : ∀ n, Regular k SR SC μ κ (s n).eta → Regular k SR SC μ κ (s (n + 1)).eta ∧
      (μ ≤ Obs.treated ((foldIdx rng size w 0 (n + 1)).map u) ∧ μ ≤ Obs.control ((foldIdx rng size w 0 (n + 1)).map u) →
        ∃ b θ, FittedOn R C k lam ((foldIdx rng size w 0 (n + 1)).map u) (s (n + 1)).eta b θ) := by
    intro n hn
    obtain ⟨e, h1, h2⟩ := stream_update h pure_score n
    obtain ⟨e', h3, h4, h5, -⟩ := fit_regular hk0 hR hC hμ hn (us := (foldIdx rng size w 0 (n + 1)).map u) (fold_units hsize 0 (by omega) n)
      (fun v hv => by obtain ⟨i, -, rfl⟩ := List.mem_map.1 hv; exact hbin i) (fun v hv => by obtain ⟨i, -, rfl⟩ := List.mem_map.1 hv; exact h.covariates i)
    rw [show (ops R C).fit (s n).eta _ = fit R C _ (s n).eta from rfl, h3] at h1
    simp only [Prod.mk.injEq, true_and] at h1
    subst h1
    rw [h2]
    exact ⟨h4, h5⟩
  have hreg : ∀ n, Regular k SR SC μ κ (s n).eta := by
    intro n
    induction n with
    | zero => exact h0
    | succ n ih => exact (hstep n ih).1
  exact ⟨hreg n, (hstep n (hreg n)).2⟩

/-- samples with enough units of both classes -/
theorem enough_of_mean {us : ℕ → List (Obs ℝ)} (hlen0 : Tendsto (fun n => (us n).length) atTop atTop) (hbin : ∀ n, ∀ u ∈ us n, u.Binary) {q : ℝ} (hq0 : 0 < q) (hq1 : q < 1)
    (hq : Tendsto (fun n => pmean ((us n).map Obs.xv)) atTop (𝓝 q)) (μ : ℤ) : ∀ᶠ n in atTop, μ ≤ Obs.treated (us n) ∧ μ ≤ Obs.control (us n) := by
  have hlen : Tendsto (fun n => ((us n).length : ℝ)) atTop atTop := tendsto_natCast_atTop_atTop.comp hlen0
  have h1 := (hq.pos_mul_atTop hq0 hlen).eventually_ge_atTop (μ : ℝ)
  have h2 := ((hq.const_sub 1).pos_mul_atTop (by linarith) hlen).eventually_ge_atTop (μ : ℝ)
  filter_upwards [h1, h2, hlen.eventually_ge_atTop 1] with n h3 h4 h5
  have e1 := Obs.sum_binary _ (hbin n)
  have e2 : ((Obs.treated (us n) : ℝ)) + (Obs.control (us n) : ℝ) = (us n).length := by
    exact_mod_cast Obs.treated_add_control _ (hbin n)
  have e3 : pmean ((us n).map Obs.xv) * (us n).length = Obs.treated (us n) := by
    rw [← e1]
    unfold pmean
    rw [List.length_map, div_mul_cancel₀ _ (by linarith)]
  rw [sub_mul, one_mul, e3] at h4
  rw [e3] at h3
  have h4' : (μ : ℝ) ≤ Obs.control (us n) := by linarith
  exact ⟨by exact_mod_cast h3, by exact_mod_cast h4'⟩

/-- eventually both classes are large enough -/
theorem eventually_enough {u : ℕ → Obs ℝ} (hsize : ∀ n, 2 ≤ size n) (hbin : ∀ i, (u i).Binary) {q : ℝ} (hq0 : 0 < q) (hq1 : q < 1)
    (hq : Tendsto (fun n => pmean ((foldIdx rng size w 0 n).map fun i => (u i).xv)) atTop (𝓝 q)) (μ : ℤ) :
    ∀ᶠ n in atTop, μ ≤ Obs.treated ((foldIdx rng size w 0 (n + 1)).map u) ∧ μ ≤ Obs.control ((foldIdx rng size w 0 (n + 1)).map u) := by
  refine (tendsto_add_atTop_nat 1).eventually (enough_of_mean (us := fun n => (foldIdx rng size w 0 n).map u) (by simpa using foldIdx_atTop rng size w (by omega) hsize)
    (fun n v hv => by obtain ⟨i, -, rfl⟩ := List.mem_map.1 hv; exact hbin i) hq0 hq1 ?_ μ)
  simpa only [List.map_map, Function.comp_def] using hq

theorem scores_approach (hk0 : 0 < k) {U : ℕ → Ω → Obs ℝ} (hU : Iid P fun i ω => (U i ω).point k) (hbin : ∀ i ω, (U i ω).Binary)
    (hz : ∀ j, MemLp (fun ω => ((U 0 ω).point k).1 j) 2 P) (hy : MemLp (fun ω => (U 0 ω).yv) 2 P)
    (hnd : Nondegenerate P fun ω => regressor ((U 0 ω).point k)) {b θ : Fin (k + 1) → ℝ} (hb : LeastSquares P (fun ω => (U 0 ω).point k) b)
    (hθ : LogisticRegression P (fun ω => (U 0 ω).point k) θ) (hR : R.IsRidge SR lam) (hl : 0 < lam) (hC : C.IsLogistic SC) (hμ : 1 ≤ μ)
    (h1 : 1 / 10 ^ 15 ≤ κ) (h2 : κ ≤ 1 / 2) (hsize : ∀ n, 2 ≤ size n)
    {s : ℕ → Ω → ArmState (AIPW M Q ℝ) (Cell ℝ) ℝ} {ci : ℕ → Ω → Fl ℝ × Fl ℝ}
    (h : ∀ᵐ ω ∂P, Streams k cfg (ops R C) rng (fun i => U i ω) size δ (fun n => s n ω) w (fun n => ci n ω))
    (h0 : ∀ᵐ ω ∂P, Regular k SR SC μ κ (s 0 ω).eta) :
    ∀ᵐ ω ∂P, ScoresApproach (ops R C) rng size w (fun n => s n ω) (fun i => (U i ω).point k) (aipwPoint κ b θ) (aipwEnvelope κ b) := by
  have hκ0 : 0 < κ := lt_of_lt_of_le (by positivity) h1
  have hVm : AEMeasurable (fun ω => (U 0 ω).point k) P := (hU.ident 0).aemeasurable_fst
  have hbin0 : ∀ᵐ ω ∂P, ((U 0 ω).point k).2.1 = 0 ∨ ((U 0 ω).point k).2.1 = 1 := Eventually.of_forall fun ω => hbin 0 ω
  have hzi : ∀ j, Integrable (fun ω => ((U 0 ω).point k).1 j) P := fun j => (hz j).integrable (by norm_num)
  obtain ⟨q0, q1⟩ := hθ.both hVm hbin0 hzi
  have hx := fold_slln hU rng size w (f := 0) (by omega) hsize (g := fun p => p.2.1) (by fun_prop) ((binary_memLp hVm hbin0 1).integrable le_rfl)
  have hrid := ridge_tendsto hU (regressor_memLp hVm hbin0 hz) hy hnd hb rng hsize w lam
  have hlog := logistic_tendsto hU (Eventually.of_forall fun ω i => hbin i ω) hzi hθ rng hsize w
  filter_upwards [hx, hrid, hlog, h, h0] with ω a1 a2 a3 a4 a5
  have hreg := stream_regular hk0 hR hC hμ hsize a4 a5 fun i => hbin i ω
  have hen := eventually_enough (u := fun i => U i ω) hsize (fun i => hbin i ω) q0 q1 a1 μ
  have hch : ∀ n, ∃ c : (Fin (k + 1) → ℝ) × (Fin (k + 1) → ℝ),
      (μ ≤ Obs.treated ((foldIdx rng size w 0 (n + 1)).map fun i => U i ω) ∧ μ ≤ Obs.control ((foldIdx rng size w 0 (n + 1)).map fun i => U i ω)) →
        FittedOn R C k lam ((foldIdx rng size w 0 (n + 1)).map fun i => U i ω) (s (n + 1) ω).eta c.1 c.2 := by
    intro n
    by_cases hc : μ ≤ Obs.treated ((foldIdx rng size w 0 (n + 1)).map fun i => U i ω) ∧ μ ≤ Obs.control ((foldIdx rng size w 0 (n + 1)).map fun i => U i ω)
    · obtain ⟨b', θ', hf⟩ := (hreg n).2 hc
      exact ⟨(b', θ'), fun _ => hf⟩
    · exact ⟨(0, 0), fun h => absurd h hc⟩
  choose c hc using hch
  have hb' : Tendsto (fun n => (c n).1) atTop (𝓝 b) := by
    refine Tendsto.congr' ?_ (a2.comp (tendsto_add_atTop_nat 1))
    filter_upwards [hen] with n hn
    have := ridge_coef (fold_units hsize 0 (by omega) n) hl (hc n hn).ridge
    rw [this, Function.comp_apply]
    simp only [List.map_map, List.length_map, Function.comp_def]
    rfl
  have hθ' : Tendsto (fun n => (c n).2) atTop (𝓝 θ) := by
    have := a3 (fun n => (c (n - 1)).2) (by
      obtain ⟨N, hN⟩ := eventually_atTop.1 hen
      refine eventually_atTop.2 ⟨N + 1, fun n hn t' => ?_⟩
      obtain ⟨m, rfl⟩ : ∃ m, n = m + 1 := ⟨n - 1, by omega⟩
      have := (hc m (hN m (by omega))).logistic t'
      simp only [List.map_map, Function.comp_def] at this
      exact this)
    exact this.comp (tendsto_add_atTop_nat 1)
  refine ⟨fun n => aipwPoint κ (c n).1 (c n).2, fun n => ‖(c n).1 - b‖ + ‖(c n).2 - θ‖, ?_, fun n => by positivity, fun n i => ?_, ?_⟩
  · have e1 := (hb'.sub_const b).norm
    have e2 := (hθ'.sub_const θ).norm
    simpa using e1.add e2
  · exact aipwPoint_lipschitz hκ0 h2 _ _ _ _ _ (hbin i ω)
  · filter_upwards [hen] with n hn
    rcases (stream_split a4 (n + 1)).2 with ⟨-, h0⟩ | hs
    · omega
    refine ⟨_, _, hs, rfl, ?_, ?_, ?_⟩
    · simp [Obs.dataset_nUnits]
    · show Except.ok _ = _
      rw [(hc n hn).fit]
    · show score R C _ _ = _
      rw [score_fitted (hreg (n + 1)).1 (hc n hn) h1 h2 (fold_units hsize 1 (by omega) n) (fun v hv => by obtain ⟨i, -, rfl⟩ := List.mem_map.1 hv; exact a4.covariates i)]
      simp only [List.map_map, Function.comp_def]

end AIPW
end Verif
