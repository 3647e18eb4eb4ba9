import Verif.Lemmas.ChiSquare
import Verif.Lemmas.Consistency
import Verif.Lemmas.Coverage5

/-!
# CHI2 intervals
-/

set_option linter.unusedSectionVars false

namespace Verif
open MeasureTheory ProbabilityTheory Filter Topology

/-- quantile of the chi-square law with `m` degrees of freedom -/
noncomputable def chiQ (m : ℕ) (p : ℝ) : ℝ := quantile (gammaMeasure ((m : ℝ) / 2) (1 / 2)) p

theorem chiQ_pos {m : ℕ} (hm : 0 < m) {p : ℝ} (h0 : 0 < p) (h1 : p < 1) : 0 < chiQ m p := by
  have hm' : (0 : ℝ) < m := by exact_mod_cast hm
  have hp : IsProbabilityMeasure (gammaMeasure ((m : ℝ) / 2) (1 / 2)) := isProbabilityMeasure_gammaMeasure (by positivity) (by norm_num)
  refine lt_quantile _ h1 ?_
  rw [cdf_gammaMeasure_eq_lintegral (by positivity) (by norm_num), setLIntegral_congr Iio_ae_eq_Iic.symm, lintegral_gammaPDF_of_nonpos le_rfl]
  simpa using h0

/-- standardised quantiles, with one degree of freedom less than observations -/
theorem chiQ_limit {p : ℝ} (h0 : 0 < p) (h1 : p < 1) :
    Tendsto (fun n : ℕ => √((n + 1 : ℕ) : ℝ) * (chiQ n p / n - 1)) atTop (𝓝 (√2 * quantile (gaussianReal 0 1) p)) := by
  have h := chi2_quantile h0 h1
  have e : quantile (gaussianReal 0 2) p = √2 * quantile (gaussianReal 0 1) p := by
    have := quantile_scale (w := 2) (by norm_num) h0 h1
    rwa [show (2 : ℝ).toNNReal = 2 by simp] at this
  rw [e] at h
  have h2 : Tendsto (fun n : ℕ => √((n + 1 : ℕ) / n : ℝ)) atTop (𝓝 1) := by
    have : Tendsto (fun n : ℕ => ((n + 1 : ℕ) / n : ℝ)) atTop (𝓝 1) := by
      have h3 : Tendsto (fun n : ℕ => 1 + 1 / (n : ℝ)) atTop (𝓝 1) := by
        simpa using tendsto_one_div_atTop_nhds_zero_nat.const_add (1 : ℝ)
      refine h3.congr' ?_
      filter_upwards [eventually_gt_atTop 0] with n hn
      have : (n : ℝ) ≠ 0 := by exact_mod_cast hn.ne'
      push_cast
      field_simp
    simpa using this.sqrt
  have := h2.mul h
  rw [one_mul] at this
  refine this.congr' ?_
  filter_upwards [eventually_gt_atTop 0] with n hn
  have hn' : (0 : ℝ) < n := by exact_mod_cast hn
  have hs := Real.sqrt_pos.mpr hn'
  have hss : √(n : ℝ) * √(n : ℝ) = n := Real.mul_self_sqrt hn'.le
  rw [Real.sqrt_div (by positivity)]
  unfold chiQ
  rw [div_mul_div_comm, hss]
  field_simp

theorem chiQ_ratio {p : ℝ} (h0 : 0 < p) (h1 : p < 1) : Tendsto (fun n : ℕ => chiQ n p / n) atTop (𝓝 1) := by
  have h := chiQ_limit h0 h1
  have hs : Tendsto (fun n : ℕ => (√((n + 1 : ℕ) : ℝ))⁻¹) atTop (𝓝 0) :=
    tendsto_inv_atTop_zero.comp (Real.tendsto_sqrt_atTop.comp (tendsto_natCast_atTop_atTop.comp (tendsto_add_atTop_nat 1)))
  have := (hs.mul h).add_const 1
  rw [zero_mul, zero_add] at this
  refine this.congr fun n => ?_
  have : √((n + 1 : ℕ) : ℝ) ≠ 0 := (Real.sqrt_pos.mpr (by positivity)).ne'
  field_simp
  ring

namespace Arm
variable {E β W Ω : Type}

theorem chi2_evaluated {cfg : SSConfig β ℝ} (halg : cfg.alg = .chi2) {ops : EtaOps E β ℝ} (hrep : ScoreRepeatable ops) {rng : Rng W ℝ}
    {d : ExpData β} {δ : ℝ} {s s' : ArmState E β ℝ} {w w' : W} {lo hi : Fl ℝ}
    (h : ssUpdate cfg ops realLib rng d (.fin δ) (s, w) = (.ok (lo, hi), s', w')) {xs : List ℝ} (hx : EvaluatedOn ops s' xs) :
    0 < δ ∧ δ < 1 ∧ xs ≠ [] ∧ s'.varEst = some (.fin (pvar xs)) ∧
    (∀ m : ℕ, 0 < m → xs.length = m + 1 → lo = .fin (pvar xs * m / chiQ m (1 - δ / 2)) ∧ hi = .fin (pvar xs * m / chiQ m (δ / 2))) := by
  obtain ⟨⟨δ', hδ, h0, h1⟩, s1, hn, -, hest⟩ := ssUpdate_inv h
  cases hδ; clear h
  refine ⟨h0, h1, ?_⟩
  obtain ⟨l, f1, x1, x2, x3, x4, x5⟩ := hx
  cases hest with
  | few l f0 e1 a b c d => rw [d] at x4; cases x4
  | enough l' f0 e1 f1' sc1 e2 sc2 e3 lo hi e4 a b c d e f g hnan hi' =>
    simp only at x1 x5
    rw [a, Option.some.injEq] at x1
    subst x1
    rw [e, Option.some.injEq] at x2
    subst x2
    have e12 := score_again hrep f g
    subst e12
    obtain ⟨ys, hy, rfl, hv⟩ := scores_finite hnan
    rw [hv, mean_fin ys hy] at hi'
    cases hi' with
    | clt sc3 e5 h => rw [halg] at h; cases h
    | burnIn ew h => rw [halg] at h; cases h
    | finite ew h => rw [halg] at h; cases h
    | chi2 _ =>
      have := hrep e2 f1'
      rw [g] at this
      rw [this, Except.ok.injEq] at x5
      have hxy : ys = xs := List.map_injective_iff.mpr (fun a b h => by injection h) x5
      subst hxy
      refine ⟨hy, by rw [hv], fun m hm hlen => ?_⟩
      have hq : ∀ p : ℝ, 0 < p → p < 1 → realLib.chi2Ppf (.fin p) ((f1'.nUnits : ℤ) - 1) = .fin (chiQ m p) := by
        intro p hp0 hp1
        have e1 : (f1'.nUnits : ℤ) - 1 = m := by rw [x3, hlen]; push_cast; ring
        rw [e1]
        show (if (0 : ℤ) < m then Fl.ppf _ (.fin p) else .nan) = _
        rw [if_pos (by exact_mod_cast hm)]
        show (if 0 < p ∧ p < 1 then Fl.fin _ else .nan) = _
        rw [if_pos ⟨hp0, hp1⟩]
        simp [chiQ]
      have e2 : (f1'.nUnits : ℝ) - 1 = m := by rw [x3, hlen]; push_cast; ring
      have d2 : (Fl.fin δ).div (.fin 2) = .fin (δ / 2) := by simp [Fl.div]
      have d3 : (Fl.fin 1).sub (.fin (δ / 2)) = .fin (1 - δ / 2) := by simp [Fl.sub, Fl.add, Fl.neg]; ring
      unfold chi2Ci
      simp only [d2, d3, e2]
      rw [hq _ (by linarith) (by linarith), hq _ (by linarith) (by linarith)]
      have p1 := (chiQ_pos hm (show 0 < 1 - δ / 2 by linarith) (by linarith)).ne'
      have p2 := (chiQ_pos hm (show 0 < δ / 2 by linarith) (by linarith)).ne'
      simp [Fl.mul, Fl.div, p1, p2]

end Arm
end Verif

namespace Verif
open MeasureTheory ProbabilityTheory Filter Topology

theorem gaussian_between {p q : ℝ} (hp : 0 < p) (hq : q < 1) (hpq : p ≤ q) :
    gaussianReal 0 1 (Set.Icc (quantile (gaussianReal 0 1) p) (quantile (gaussianReal 0 1) q)) = ENNReal.ofReal (q - p) := by
  set γ := gaussianReal 0 1 with hγ
  have hna : ∀ x, γ {x} = 0 := gaussian_singleton one_ne_zero
  have hnull : NullSingletonClass γ := nullSingletonClass_gaussianReal one_ne_zero
  rw [measure_congr Ioc_ae_eq_Icc.symm]
  have h2 := (cdf γ).measure_Ioc (quantile γ p) (quantile γ q)
  rw [measure_cdf, cdf_quantile γ hna hp (by linarith), cdf_quantile γ hna (by linarith) hq] at h2
  exact h2

theorem gaussian_cdf_zero : cdf (gaussianReal 0 1) 0 = 1 / 2 := by
  set γ := gaussianReal 0 1 with hγ
  have hm : γ.map (fun x => -x) = γ := by
    have := gaussianReal_map_neg (μ := 0) (v := 1)
    rwa [neg_zero] at this
  have hnull : NullSingletonClass γ := nullSingletonClass_gaussianReal one_ne_zero
  have h1 : γ (Set.Iic 0) = γ (Set.Ioi 0) := by
    conv_lhs => rw [← hm]
    rw [Measure.map_apply measurable_neg measurableSet_Iic, measure_congr Ioi_ae_eq_Ici]
    congr 1
    ext x
    simp
  have h2 : γ.real (Set.Iic 0) + γ.real (Set.Ioi 0) = 1 := by
    rw [← measureReal_union (by rw [Set.disjoint_left]; intro x hx hy; simp at hx hy; linarith) measurableSet_Ioi, Set.Iic_union_Ioi]
    simp
  rw [cdf_eq_real]
  have h3 : γ.real (Set.Iic 0) = γ.real (Set.Ioi 0) := by rw [measureReal_def, measureReal_def, h1]
  linarith

theorem quantile_neg {p : ℝ} (h0 : 0 < p) (h : p < 1 / 2) : quantile (gaussianReal 0 1) p < 0 := by
  by_contra hn
  have e := cdf_quantile (gaussianReal 0 1) (gaussian_singleton one_ne_zero) h0 (by linarith)
  have := monotone_cdf (gaussianReal 0 1) (not_lt.mp hn)
  rw [e, gaussian_cdf_zero] at this
  linarith

theorem quantile_pos {p : ℝ} (h1 : p < 1) (h : 1 / 2 < p) : 0 < quantile (gaussianReal 0 1) p :=
  lt_quantile _ h1 (by rw [gaussian_cdf_zero]; exact h)

section
variable {Ω : Type} [MeasurableSpace Ω] {P : Measure Ω} [IsProbabilityMeasure P] {X : ℕ → Ω → ℝ}

/-- a random variable without variance has no variance of squares -/
theorem var_ne_zero (h4 : MemLp (X 0) 4 P) (hw : varOfSq P (X 0) ≠ 0) : 0 < Var[X 0; P] := by
  refine lt_of_le_of_ne (variance_nonneg _ _) fun h => hw ?_
  have h2 : MemLp (X 0) 2 P := h4.mono_exponent (by norm_num)
  have h0 := (evariance_eq_zero_iff h2.1.aemeasurable).mp (by
    have := (ofReal_variance h2).symm
    rw [this, ← h, ENNReal.ofReal_zero])
  unfold varOfSq
  have : (fun ω => (X 0 ω - P[X 0]) ^ 2) =ᵐ[P] fun _ => 0 := by
    filter_upwards [h0] with ω hω
    rw [hω]; simp
  rw [variance_congr this]
  exact variance_zero P

/-- sample variances fall below the variance by any multiple of `1 / √n`, infinitely often -/
theorem var_below (hX : Iid P X) (hm : ∀ i, Measurable (X i)) (h4 : MemLp (X 0) 4 P) (hw : varOfSq P (X 0) ≠ 0)
    {N : ℕ → ℕ} (hN : Tendsto N atTop atTop) :
    ∀ᵐ ω ∂P, ∀ c : ℕ, ∃ᶠ n in atTop, pvar (sample X (N n) ω) < Var[X 0; P] - c / √(N n : ℝ) := by
  have hZ : Iid P fun i ω => (X i ω - P[X 0]) ^ 2 - Var[X 0; P] :=
    hX.comp (f := fun x => (x - P[X 0]) ^ 2 - Var[X 0; P]) (by fun_prop)
  have hZm : ∀ i, Measurable fun ω => (X i ω - P[X 0]) ^ 2 - Var[X 0; P] := fun i =>
    (((hm i).sub_const _).pow_const 2).sub_const _
  have hint : Integrable (fun ω => (X 0 ω - P[X 0]) ^ 2) P := int_pow h4 _ (by omega)
  have hmean : P[fun ω => (X 0 ω - P[X 0]) ^ 2 - Var[X 0; P]] = 0 := by
    rw [integral_sub hint (integrable_const _), ← variance_eq_integral (hm 0).aemeasurable]
    simp
  have hvar : Var[fun ω => (X 0 ω - P[X 0]) ^ 2 - Var[X 0; P]; P] ≠ 0 := by
    rw [variance_sub_const hint.aestronglyMeasurable]
    exact hw
  have hall : ∀ᵐ ω ∂P, ∀ c : ℕ, ∃ᶠ n in atTop, ∑ i ∈ Finset.range (N n), ((X i ω - P[X 0]) ^ 2 - Var[X 0; P]) < -(c : ℝ) * √(N n : ℝ) :=
    ae_all_iff.mpr fun c => sums_below hZ hZm ((memLp_sq h4).sub (memLp_const _)) hmean hvar hN c
  filter_upwards [hall] with ω hω c
  refine ((hω c).and_eventually (hN.eventually (eventually_gt_atTop 0))).mono ?_
  rintro n ⟨a1, a5⟩
  have hn : (0 : ℝ) < N n := by exact_mod_cast a5
  have hs : 0 < √(N n : ℝ) := Real.sqrt_pos.mpr hn
  have hss : √(N n : ℝ) * √(N n : ℝ) = N n := Real.mul_self_sqrt hn.le
  rw [pvar_shift (by omega) (P[X 0])]
  rw [Finset.sum_sub_distrib, Finset.sum_const, Finset.card_range, nsmul_eq_mul] at a1
  set S := ∑ i ∈ Finset.range (N n), (X i ω - P[X 0]) ^ 2
  have b1 : S / N n < Var[X 0; P] - c / √(N n : ℝ) := by
    have e : (c : ℝ) / √(N n : ℝ) = c * √(N n : ℝ) / N n := by
      rw [div_eq_div_iff hs.ne' hn.ne', mul_assoc, hss]
    rw [e, div_lt_iff₀ hn, sub_mul, div_mul_cancel₀ _ hn.ne']
    nlinarith
  have b3 : 0 ≤ (pmean (sample X (N n) ω) - P[X 0]) ^ 2 := sq_nonneg _
  linarith

namespace Arm
variable {E β W : Type}

/-- the limit of the coverage of CHI2 intervals -/
theorem chi2_limit (hX : Iid P X) (h4 : MemLp (X 0) 4 P) (hw : varOfSq P (X 0) ≠ 0) {cfg : SSConfig β ℝ} (halg : cfg.alg = .chi2)
    {ops : EtaOps E β ℝ} (hrep : ScoreRepeatable ops) {rng : Rng W ℝ} {δ : ℝ} {N : ℕ → ℕ} (hN : Tendsto N atTop atTop)
    {d : ℕ → Ω → ExpData β} {s s' : ℕ → Ω → ArmState E β ℝ} {w w' : ℕ → Ω → W} {lo hi : ℕ → Ω → Fl ℝ}
    (hup : ∀ n ω, ssUpdate cfg ops realLib rng (d n ω) (.fin δ) (s n ω, w n ω) = (.ok (lo n ω, hi n ω), s' n ω, w' n ω))
    (hev : ∀ n ω, EvaluatedOn ops (s' n ω) (sample X (N n) ω)) :
    (0 < δ ∧ δ < 1) ∧
    Tendsto (fun n => P {ω | Fl.Covers (lo n ω) (hi n ω) Var[X 0; P]}) atTop
      (𝓝 (gaussianReal 0 1 (Set.Icc (√2 * Var[X 0; P] / √(varOfSq P (X 0)) * quantile (gaussianReal 0 1) (δ / 2))
        (√2 * Var[X 0; P] / √(varOfSq P (X 0)) * quantile (gaussianReal 0 1) (1 - δ / 2))))) := by
  obtain ⟨ω0⟩ : Nonempty Ω := P.nonempty_of_neZero
  obtain ⟨h0, h1, -⟩ := chi2_evaluated halg hrep (hup 0 ω0) (hev 0 ω0)
  refine ⟨⟨h0, h1⟩, ?_⟩
  have hw0 : 0 < varOfSq P (X 0) := lt_of_le_of_ne (variance_nonneg _ _) hw.symm
  have hv : (varOfSq P (X 0)).toNNReal ≠ 0 := (Real.toNNReal_pos.mpr hw0).ne'
  have hσ := var_ne_zero h4 hw
  have hT := tid_comp (hX.clt_var h4 (Z := (id : ℝ → ℝ)) (P' := gaussianReal 0 (varOfSq P (X 0)).toNNReal)
      ⟨aemeasurable_id, by simp⟩) hN
  have hN1 : Tendsto (fun n => N n - 1) atTop atTop := (tendsto_sub_atTop_nat 1).comp hN
  have hq : ∀ p, 0 < p → p < 1 → Tendsto (fun n => Var[X 0; P] * (√((N n - 1 + 1 : ℕ) : ℝ) * (chiQ (N n - 1) p / (N n - 1 : ℕ) - 1))) atTop
      (𝓝 (Var[X 0; P] * (√2 * quantile (gaussianReal 0 1) p))) := fun p hp0 hp1 =>
    ((chiQ_limit hp0 hp1).comp hN1).const_mul _
  have hlim := between_limit (P := P) hv hT
    (A := fun n _ => Var[X 0; P] * (√((N n - 1 + 1 : ℕ) : ℝ) * (chiQ (N n - 1) (δ / 2) / (N n - 1 : ℕ) - 1)))
    (B := fun n _ => Var[X 0; P] * (√((N n - 1 + 1 : ℕ) : ℝ) * (chiQ (N n - 1) (1 - δ / 2) / (N n - 1 : ℕ) - 1)))
    (fun n => aemeasurable_const) (fun n => aemeasurable_const)
    (Eventually.of_forall fun ω => ⟨hq (δ / 2) (by linarith) (by linarith), hq (1 - δ / 2) (by linarith) (by linarith)⟩)
  have hs := Real.sqrt_pos.mpr hw0
  have e : ∀ z : ℝ, Var[X 0; P] * (√2 * z) = √2 * Var[X 0; P] / √(varOfSq P (X 0)) * z * √(varOfSq P (X 0)) := fun z => by field_simp
  rw [e, e, gaussian_scale hw0] at hlim
  refine hlim.congr' ?_
  filter_upwards [hN.eventually (eventually_ge_atTop 2)] with n hn
  congr 1
  ext ω
  simp only [Set.mem_ofPred_eq]
  obtain ⟨-, -, -, -, hcl⟩ := chi2_evaluated halg hrep (hup n ω) (hev n ω)
  obtain ⟨m, hm⟩ : ∃ m, N n = m + 1 := ⟨N n - 1, by omega⟩
  have hm0 : 0 < m := by omega
  obtain ⟨e1, e2⟩ := hcl m hm0 (by simp [sample, hm])
  have hm' : (0 : ℝ) < m := by exact_mod_cast hm0
  have q1 := chiQ_pos hm0 (show 0 < 1 - δ / 2 by linarith) (by linarith)
  have q2 := chiQ_pos hm0 (show 0 < δ / 2 by linarith) (by linarith)
  rw [e1, e2, Fl.Covers, fin_le', fin_le', hm, Nat.add_sub_cancel]
  have hsn : 0 < √((m + 1 : ℕ) : ℝ) := Real.sqrt_pos.mpr (by positivity)
  have r1 : ∀ c : ℝ, Var[X 0; P] * (√((m + 1 : ℕ) : ℝ) * (c / m - 1)) = √((m + 1 : ℕ) : ℝ) * (Var[X 0; P] * (c / m) - Var[X 0; P]) := fun c => by ring
  rw [r1, r1, mul_le_mul_iff_right₀ hsn, mul_le_mul_iff_right₀ hsn, sub_le_sub_iff_right, sub_le_sub_iff_right,
    div_le_iff₀ q1, le_div_iff₀ q2, mul_div_assoc', mul_div_assoc', div_le_iff₀ hm', le_div_iff₀ hm', and_comm]

end Arm
end
end Verif
