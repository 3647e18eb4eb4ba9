import Verif.Lemmas.AipwMean
import Verif.Lemmas.SklearnExists
import Verif.Lemmas.Stream4
import Verif.Lemmas.CoverageDemo2

/-!
# Property C98: arms with an AIPW parameter (ridge and logistic regression) are consistent and doubly robust
-/

set_option linter.unusedSectionVars false
set_option linter.unusedSimpArgs false

namespace Verif
open MeasureTheory ProbabilityTheory Filter Topology Arm Param

namespace AIPW

theorem holder_442 : ENNReal.HolderTriple 4 4 2 where
  inv_add_inv_eq_inv := by
    rw [← two_mul, ← div_eq_mul_inv, ENNReal.div_eq_inv_mul, show (4 : ENNReal) = 2 * 2 by norm_num, ENNReal.mul_inv (by simp) (by simp), mul_assoc,
      ENNReal.inv_mul_cancel (by simp) (by simp), mul_one]

theorem holder_884 : ENNReal.HolderTriple 8 8 4 where
  inv_add_inv_eq_inv := by
    rw [← two_mul, ← div_eq_mul_inv, ENNReal.div_eq_inv_mul, show (8 : ENNReal) = 4 * 2 by norm_num, ENNReal.mul_inv (by simp) (by simp), mul_assoc,
      ENNReal.inv_mul_cancel (by simp) (by simp), mul_one]

theorem h24 : (2 : ENNReal) ≤ 4 := by norm_num

theorem h48 : (4 : ENNReal) ≤ 8 := by norm_num

theorem kappa_pos {κ : ℝ} (h : 1 / 10 ^ 15 ≤ κ) : 0 < κ := lt_of_lt_of_le (by positivity) h

section
variable {Ω M Q W : Type} [MeasurableSpace Ω] {P : Measure Ω} [IsProbabilityMeasure P] {k : ℕ} {R : Predictor M ℝ} {C : Predictor Q ℝ}
  {SR : M → Prop} {SC : Q → Prop} {lam κ : ℝ} {μ : ℤ} {cfg : SSConfig (Cell ℝ) ℝ} {rng : Rng W ℝ} {size : ℕ → ℕ} {w : ℕ → W}
  {U : ℕ → Ω → Obs ℝ} {b θ : Fin (k + 1) → ℝ} {s : ℕ → Ω → ArmState (AIPW M Q ℝ) (Cell ℝ) ℝ} {ci : ℕ → Ω → Fl ℝ × Fl ℝ}

/-- **C98**: a sample-splitting arm with an AIPW parameter, whose response model is a ridge regression without intercept and whose propensity model is
a logistic regression, is updated again and again with blocks of at least two units from a stream of independent, identically distributed units. Almost
surely its estimates of mean and variance converge to mean and variance of the AIPW score with the least-squares coefficients of the response and the
coefficients of the logistic regression in the population; the penalties disappear in the limit. -/
theorem C98_estimates_converge (hk : 0 < k) (hU : Iid P fun i ω => (U i ω).point k) (hbin : ∀ i ω, (U i ω).Binary)
    (hz : ∀ j, MemLp (fun ω => ((U 0 ω).point k).1 j) 4 P) (hy : MemLp (fun ω => (U 0 ω).yv) 4 P)
    (hnd : Nondegenerate P fun ω => regressor ((U 0 ω).point k)) (hb : LeastSquares P (fun ω => (U 0 ω).point k) b)
    (hθ : LogisticRegression P (fun ω => (U 0 ω).point k) θ) (hR : R.IsRidge SR lam) (hl : 0 < lam) (hC : C.IsLogistic SC) (hμ : 1 ≤ μ)
    (h1 : 1 / 10 ^ 15 ≤ κ) (h2 : κ ≤ 1 / 2) (hsize : ∀ n, 2 ≤ size n) {δ : Fl ℝ}
    (h : ∀ᵐ ω ∂P, Streams k cfg (ops R C) rng (fun i => U i ω) size δ (fun n => s n ω) w (fun n => ci n ω))
    (h0 : ∀ᵐ ω ∂P, Regular k SR SC μ κ (s 0 ω).eta) :
    ∀ᵐ ω ∂P, EstimatesConverge (fun n => s n ω)
      (∫ ω, aipwScore (fun x z => linearValue b (x :: z)) (fun z => min (max (logisticValue θ z) κ) (1 - κ)) (U 0 ω) ∂P)
      Var[fun ω => aipwScore (fun x z => linearValue b (x :: z)) (fun z => min (max (logisticValue θ z) κ) (1 - κ)) (U 0 ω); P] := by
  have hκ0 : 0 < κ := kappa_pos h1
  have hVm : AEMeasurable (fun ω => (U 0 ω).point k) P := (hU.ident 0).aemeasurable_fst
  have hbin0 : ∀ᵐ ω ∂P, ((U 0 ω).point k).2.1 = 0 ∨ ((U 0 ω).point k).2.1 = 1 := Eventually.of_forall fun ω => hbin 0 ω
  have hz2 : ∀ j, MemLp (fun ω => ((U 0 ω).point k).1 j) 2 P := fun j => (hz j).mono_exponent h24
  have hy2 : MemLp (fun ω => (U 0 ω).yv) 2 P := hy.mono_exponent h24
  have := holder_442
  simp only [aipwScore_point]
  have m1 : MemLp (fun ω => aipwPoint κ b θ ((U 0 ω).point k)) 2 P := aipwPoint_memLp hVm hbin0 hz2 hy2 hκ0 h2 b θ
  have m2 : MemLp (fun ω => aipwEnvelope κ b ((U 0 ω).point k)) 2 P := aipwEnvelope_memLp hVm hbin0 h24 hz hy b
  have m3 := scores_approach hk hU hbin hz2 hy2 hnd hb hθ hR hl hC hμ h1 h2 hsize h h0
  exact envelope_estimates (V := fun i ω => (U i ω).point k) (U := U) (s := s) (ci := ci) (f := aipwPoint κ b θ) (g := aipwEnvelope κ b) hU hsize (measurable_aipwPoint κ b θ)
    m1 (measurable_aipwEnvelope κ b) (envelope_nonneg hκ0 b) m2 h repeatable m3

/-- **C98**: with moments of order eight, the intervals returned by `CLT` and `CHI2` arms shrink to the variance of the same score. -/
theorem C98_intervals_converge (hk : 0 < k) (hU : Iid P fun i ω => (U i ω).point k) (hbin : ∀ i ω, (U i ω).Binary)
    (hz : ∀ j, MemLp (fun ω => ((U 0 ω).point k).1 j) 8 P) (hy : MemLp (fun ω => (U 0 ω).yv) 8 P)
    (hnd : Nondegenerate P fun ω => regressor ((U 0 ω).point k)) (hb : LeastSquares P (fun ω => (U 0 ω).point k) b)
    (hθ : LogisticRegression P (fun ω => (U 0 ω).point k) θ) (hR : R.IsRidge SR lam) (hl : 0 < lam) (hC : C.IsLogistic SC) (hμ : 1 ≤ μ)
    (h1 : 1 / 10 ^ 15 ≤ κ) (h2 : κ ≤ 1 / 2) (hsize : ∀ n, 2 ≤ size n) {δ : ℝ} (halg : cfg.alg = .clt ∨ cfg.alg = .chi2)
    (h : ∀ᵐ ω ∂P, Streams k cfg (ops R C) rng (fun i => U i ω) size (.fin δ) (fun n => s n ω) w (fun n => ci n ω))
    (h0 : ∀ᵐ ω ∂P, Regular k SR SC μ κ (s 0 ω).eta) :
    ∀ᵐ ω ∂P, IntervalsConverge (fun n => ci n ω)
      Var[fun ω => aipwScore (fun x z => linearValue b (x :: z)) (fun z => min (max (logisticValue θ z) κ) (1 - κ)) (U 0 ω); P] := by
  have hκ0 : 0 < κ := kappa_pos h1
  have hVm : AEMeasurable (fun ω => (U 0 ω).point k) P := (hU.ident 0).aemeasurable_fst
  have hbin0 : ∀ᵐ ω ∂P, ((U 0 ω).point k).2.1 = 0 ∨ ((U 0 ω).point k).2.1 = 1 := Eventually.of_forall fun ω => hbin 0 ω
  have hz4 : ∀ j, MemLp (fun ω => ((U 0 ω).point k).1 j) 4 P := fun j => (hz j).mono_exponent h48
  have hy4 : MemLp (fun ω => (U 0 ω).yv) 4 P := hy.mono_exponent h48
  have := holder_884
  simp only [aipwScore_point]
  have m1 : MemLp (fun ω => aipwPoint κ b θ ((U 0 ω).point k)) 4 P := aipwPoint_memLp hVm hbin0 hz4 hy4 hκ0 h2 b θ
  have m2 : MemLp (fun ω => aipwEnvelope κ b ((U 0 ω).point k)) 4 P := aipwEnvelope_memLp hVm hbin0 h48 hz hy b
  have m3 := scores_approach hk hU hbin (fun j => (hz4 j).mono_exponent h24) (hy4.mono_exponent h24) hnd hb hθ hR hl hC hμ h1 h2 hsize h h0
  exact envelope_intervals (V := fun i ω => (U i ω).point k) (U := U) (s := s) (ci := ci) (f := aipwPoint κ b θ) (g := aipwEnvelope κ b) hU hsize (measurable_aipwPoint κ b θ)
    m1 (measurable_aipwEnvelope κ b) (envelope_nonneg hκ0 b) m2 halg h repeatable m3

/-- **C98**: if the mean response is linear in exposure and covariates (without constant), the estimates of the mean converge to the coefficient of the
exposure, whatever the propensity: it is enough that no hyperplane separates exposed and other units. -/
theorem C98_response_linear (hk : 0 < k) (hU : Iid P fun i ω => (U i ω).point k) (hV : Measurable fun ω => (U 0 ω).point k) (hbin : ∀ i ω, (U i ω).Binary)
    (hz : ∀ j, MemLp (fun ω => ((U 0 ω).point k).1 j) 4 P) (hy : MemLp (fun ω => (U 0 ω).yv) 4 P)
    (hnd : Nondegenerate P fun ω => regressor ((U 0 ω).point k)) (hsep : NotSeparable P fun ω => (U 0 ω).point k)
    (hm : ResponseMean P (fun ω => (U 0 ω).point k) fun x z => b 0 * x + ∑ j : Fin k, b j.succ * z j)
    (hR : R.IsRidge SR lam) (hl : 0 < lam) (hC : C.IsLogistic SC) (hμ : 1 ≤ μ)
    (h1 : 1 / 10 ^ 15 ≤ κ) (h2 : κ ≤ 1 / 2) (hsize : ∀ n, 2 ≤ size n) {δ : Fl ℝ}
    (h : ∀ᵐ ω ∂P, Streams k cfg (ops R C) rng (fun i => U i ω) size δ (fun n => s n ω) w (fun n => ci n ω))
    (h0 : ∀ᵐ ω ∂P, Regular k SR SC μ κ (s 0 ω).eta) : ∃ v, ∀ᵐ ω ∂P, EstimatesConverge (fun n => s n ω) (b 0) v := by
  have hκ0 : 0 < κ := kappa_pos h1
  have hbin0 : ∀ᵐ ω ∂P, ((U 0 ω).point k).2.1 = 0 ∨ ((U 0 ω).point k).2.1 = 1 := Eventually.of_forall fun ω => hbin 0 ω
  have hzi : ∀ j, Integrable (fun ω => ((U 0 ω).point k).1 j) P := fun j => (hz j).integrable (by norm_num)
  have hyi : Integrable (fun ω => ((U 0 ω).point k).2.2) P := hy.integrable (by norm_num)
  obtain ⟨θ, hθ⟩ := hsep.exists_logistic hV.aemeasurable hbin0 hzi
  have hb := linear_leastSquares hV hbin0 (fun j => (hz j).mono_exponent h24) (hy.mono_exponent h24) hm
  have key := C98_estimates_converge hk hU hbin hz hy hnd hb hθ hR hl hC hμ h1 h2 hsize h h0
  simp only [aipwScore_point] at key
  rw [aipwPoint_mean_linear hV hbin0 hzi hyi hκ0 h2 b θ hm] at key
  exact ⟨_, key⟩

/-- **C98**: if the propensity is logistic in the covariates and stays within the bounds of the overlap, the estimates of the mean converge to the
adjusted effect `E[m(1, Z) - m(0, Z)]`, whatever the mean response `m`. -/
theorem C98_propensity_logistic (hk : 0 < k) (hU : Iid P fun i ω => (U i ω).point k) (hV : Measurable fun ω => (U 0 ω).point k) (hbin : ∀ i ω, (U i ω).Binary)
    (hz : ∀ j, MemLp (fun ω => ((U 0 ω).point k).1 j) 4 P) (hy : MemLp (fun ω => (U 0 ω).yv) 4 P)
    (hnd : Nondegenerate P fun ω => regressor ((U 0 ω).point k)) (hnd1 : Nondegenerate P fun ω => withOne ((U 0 ω).point k))
    {m : ℝ → (Fin k → ℝ) → ℝ} (hm : ResponseMean P (fun ω => (U 0 ω).point k) m) (hmm : ∀ x, Measurable (m x))
    (hm1 : Integrable (fun ω => m 1 ((U 0 ω).point k).1) P) (hm0 : Integrable (fun ω => m 0 ((U 0 ω).point k).1) P)
    (he : PropensityIs P (fun ω => (U 0 ω).point k) fun z => Real.sigmoid (θ 0 + ∑ j, θ j.succ * z j))
    (hov : ∀ᵐ ω ∂P, κ ≤ Real.sigmoid (θ 0 + ∑ j, θ j.succ * ((U 0 ω).point k).1 j) ∧ Real.sigmoid (θ 0 + ∑ j, θ j.succ * ((U 0 ω).point k).1 j) ≤ 1 - κ)
    (hR : R.IsRidge SR lam) (hl : 0 < lam) (hC : C.IsLogistic SC) (hμ : 1 ≤ μ)
    (h1 : 1 / 10 ^ 15 ≤ κ) (h2 : κ ≤ 1 / 2) (hsize : ∀ n, 2 ≤ size n) {δ : Fl ℝ}
    (h : ∀ᵐ ω ∂P, Streams k cfg (ops R C) rng (fun i => U i ω) size δ (fun n => s n ω) w (fun n => ci n ω))
    (h0 : ∀ᵐ ω ∂P, Regular k SR SC μ κ (s 0 ω).eta) :
    ∃ v, ∀ᵐ ω ∂P, EstimatesConverge (fun n => s n ω) (∫ ω, (m 1 ((U 0 ω).point k).1 - m 0 ((U 0 ω).point k).1) ∂P) v := by
  have hκ0 : 0 < κ := kappa_pos h1
  have hbin0 : ∀ᵐ ω ∂P, ((U 0 ω).point k).2.1 = 0 ∨ ((U 0 ω).point k).2.1 = 1 := Eventually.of_forall fun ω => hbin 0 ω
  have hzi : ∀ j, Integrable (fun ω => ((U 0 ω).point k).1 j) P := fun j => (hz j).integrable (by norm_num)
  have hyi : Integrable (fun ω => ((U 0 ω).point k).2.2) P := hy.integrable (by norm_num)
  have hz2 : ∀ j, MemLp (fun ω => ((U 0 ω).point k).1 j) 2 P := fun j => (hz j).mono_exponent h24
  have hy2 : MemLp (fun ω => ((U 0 ω).point k).2.2) 2 P := hy.mono_exponent h24
  have hθ := logistic_correct hV hbin0 hzi hnd1 he
  obtain ⟨b, hb⟩ := Nondegenerate.exists_leastSquares hnd (regressor_memLp hV.aemeasurable hbin0 hz2) hy2
  have key := C98_estimates_converge hk hU hbin hz hy hnd hb hθ hR hl hC hμ h1 h2 hsize h h0
  simp only [aipwScore_point] at key
  rw [aipwPoint_mean_logistic hV hbin0 hzi hyi hκ0 h2 b θ hm hmm hm1 hm0 he hov] at key
  exact ⟨_, key⟩

/-- **C98**: these updates never fail, whatever the states of the random generator, and an update draws one permutation. -/
theorem C98_updates_succeed (hk : 0 < k) (hR : R.IsRidge SR lam) (hC : C.IsLogistic SC) (hμ : 1 ≤ μ) (hκ1 : 1 / 10 ^ 15 ≤ κ) (hκ2 : κ ≤ 1 / 2)
    (rng : Rng W ℝ) (hsize : ∀ n, 2 ≤ size n) {δ : ℝ} (h0 : 0 < δ) (h1 : δ < 1) (halg : cfg.alg = .clt ∨ cfg.alg = .chi2)
    (hstable : cfg.stable = true) (w : ℕ → W) (u : ℕ → Obs ℝ)
    (ht : ∀ n, ∃ d, cfg.transform d = .ok (Obs.dataset k ((List.range (size n)).map fun i => u (blockStart size n + i))))
    (hu : ∀ i, (u i).z.length = k) (hb : ∀ i, (u i).Binary) (s0 : ArmState (AIPW M Q ℝ) (Cell ℝ) ℝ) (hs : s0.split = none)
    (hp : s0.numPulled = 0) (hreg : Regular k SR SC μ κ s0.eta) :
    ∃ s ci, s 0 = s0 ∧ Streams k cfg (ops R C) rng u size (.fin δ) s w ci ∧
      ∀ n d, cfg.transform d = .ok (Obs.dataset k ((List.range (size n)).map fun i => u (blockStart size n + i))) →
        ssUpdate cfg (ops R C) realLib rng d (.fin δ) (s n, w n) = (.ok (ci n), s (n + 1), (rng.perm (size n) (w n)).2) := by
  obtain ⟨s, ci, a, b⟩ := stream_runs (ops := ops R C) (k := k) rng hsize h0 h1 halg hstable (Good := Regular k SR SC μ κ) (Fine := fun u => u.Binary ∧ u.z.length = k)
    (fun e he us hne hf => by
      obtain ⟨e', a1, a2, -, -⟩ := fit_regular hk hR hC hμ he hne (fun u hu => (hf u hu).1) (fun u hu => (hf u hu).2)
      refine ⟨e', e'.hasBeenFit, a1, rfl, a2, fun hfit vs hvs _ => ?_⟩
      have hk' := a2.covDim
      have := score_dataset R C e' vs hfit hvs (by rw [a2.minOverlap]; exact hκ1) (by rw [a2.minOverlap]; exact hκ2)
      rw [hk'] at this
      refine ⟨vs.map fun u => aipwScore (fun x z => R.predict e'.response (x :: z)) (eHat C e') u, ?_, by simp⟩
      show (score _ _ _ _, _) = _
      rw [this, List.map_map]
      rfl) w u ht hu (fun i => ⟨hb i, hu i⟩) s0 hs hp hreg
  exact ⟨s, ci, a, b, fun n d hd => stream_step b n hd rng (w n) rfl⟩

end

/-! ## Non-vacuity -/

/-- the units: covariate and exposure `(0, 0)`, `(0, 1)`, `(1, 0)`, `(1, 1)` with probabilities 1/4, 1/4, 1/3, 1/6 -/
noncomputable def fourPoint : Measure ℝ :=
  ENNReal.ofReal (1 / 4) • Measure.dirac 0 + ENNReal.ofReal (1 / 4) • Measure.dirac 1 + ENNReal.ofReal (1 / 3) • Measure.dirac 2 + ENNReal.ofReal (1 / 6) • Measure.dirac 3

instance : IsProbabilityMeasure fourPoint := by
  constructor
  simp only [fourPoint, Measure.coe_add, Measure.coe_smul, Pi.add_apply, Pi.smul_apply, measure_univ, smul_eq_mul, mul_one]
  rw [← ENNReal.ofReal_add (by norm_num) (by norm_num), ← ENNReal.ofReal_add (by norm_num) (by norm_num), ← ENNReal.ofReal_add (by norm_num) (by norm_num)]
  norm_num

theorem integral_fourPoint (f : ℝ → ℝ) : ∫ x, f x ∂fourPoint = 1 / 4 * f 0 + 1 / 4 * f 1 + 1 / 3 * f 2 + 1 / 6 * f 3 := by
  unfold fourPoint
  have i1 : ∀ (c : ℝ) (x : ℝ), Integrable f (ENNReal.ofReal c • Measure.dirac x) := fun c x =>
    (integrable_dirac (by simp)).smul_measure ENNReal.ofReal_ne_top
  rw [integral_add_measure (((i1 _ _).add_measure (i1 _ _)).add_measure (i1 _ _)) (i1 _ _), integral_add_measure ((i1 _ _).add_measure (i1 _ _)) (i1 _ _),
    integral_add_measure (i1 _ _) (i1 _ _),
    integral_smul_measure, integral_smul_measure, integral_smul_measure, integral_smul_measure, integral_dirac, integral_dirac, integral_dirac, integral_dirac]
  simp only [smul_eq_mul]
  rw [ENNReal.toReal_ofReal (by norm_num), ENNReal.toReal_ofReal (by norm_num), ENNReal.toReal_ofReal (by norm_num)]

theorem integral_four (f : ℝ → ℝ) (hf : Measurable f) :
    ∫ ω, f (coord 0 ω) ∂draws fourPoint = 1 / 4 * f 0 + 1 / 4 * f 1 + 1 / 3 * f 2 + 1 / 6 * f 3 := by
  rw [integral_coord f hf, integral_fourPoint]

/-- what holds almost surely holds for all units -/
theorem four_ae {p : ℝ → Prop} (h : ∀ᵐ ω ∂draws fourPoint, p (coord 0 ω)) {a : ℝ} (ha : a = 0 ∨ a = 1 ∨ a = 2 ∨ a = 3) : p a := by
  by_contra hp
  have h1 : ∀ᵐ ω ∂draws fourPoint, coord 0 ω ≠ a := h.mono fun ω hω e => hp (e ▸ hω)
  have hm : Measurable (Set.indicator {a} fun _ => (1 : ℝ)) := measurable_const.indicator (measurableSet_singleton a)
  have h2 := integral_four _ hm
  rw [integral_congr_ae (g := fun _ => (0 : ℝ)) (h1.mono fun ω hω => by simp [hω]), integral_zero] at h2
  rcases ha with rfl | rfl | rfl | rfl <;> norm_num [Set.indicator] at h2

noncomputable def fourZ (c : ℝ) : ℝ := if c < 2 then 0 else 1
noncomputable def fourX (c : ℝ) : Int := if c = 1 ∨ c = 3 then 1 else 0

/-- a unit with response `m x z` -/
noncomputable def fourUnit (m : ℝ → ℝ → ℝ) (c : ℝ) : Obs ℝ := ⟨[.flt (fourZ c)], .int (fourX c), .flt (m (fourX c) (fourZ c))⟩

theorem four_binary (m : ℝ → ℝ → ℝ) (c : ℝ) : (fourUnit m c).Binary := by
  unfold Obs.Binary Obs.xv fourUnit fourX
  split <;> simp [Cell.val]

theorem four_point (m : ℝ → ℝ → ℝ) (c : ℝ) : (fourUnit m c).point 1 = (fun _ => fourZ c, (fourX c : ℝ), m (fourX c) (fourZ c)) := by
  unfold Obs.point fourUnit
  refine Prod.ext (funext fun j => ?_) (Prod.ext ?_ rfl)
  · rw [Subsingleton.elim j 0]; rfl
  · simp [Obs.xv, Cell.val]

theorem measurable_fourZ : Measurable fourZ := Measurable.ite measurableSet_Iio measurable_const measurable_const

theorem measurable_fourX : Measurable fun c => (fourX c : ℝ) := by
  have : (fun c => (fourX c : ℝ)) = fun c => if c ∈ ({1, 3} : Set ℝ) then (1 : ℝ) else 0 := by
    funext c
    unfold fourX
    simp only [Set.mem_insert_iff, Set.mem_singleton_iff]
    split <;> simp
  rw [this]
  exact Measurable.ite ((Set.finite_singleton (3 : ℝ)).insert 1).measurableSet measurable_const measurable_const

theorem four_measurable {m : ℝ → ℝ → ℝ} (hm : Measurable fun q : ℝ × ℝ => m q.1 q.2) : Measurable fun c => (fourUnit m c).point 1 := by
  simp only [four_point]
  exact (measurable_pi_lambda _ fun _ => measurable_fourZ).prodMk (measurable_fourX.prodMk (hm.comp (measurable_fourX.prodMk measurable_fourZ)))

theorem four_iid {m : ℝ → ℝ → ℝ} (hm : Measurable fun q : ℝ × ℝ => m q.1 q.2) : Iid (draws fourPoint) fun i ω => (fourUnit m (coord i ω)).point 1 :=
  iid_coord.comp (four_measurable hm)

theorem four_memLp (f : ℝ → ℝ) (hf : Measurable f) {C : ℝ} (hC : ∀ c, f c ∈ Set.Icc (-C) C) (p : ENNReal) :
    MemLp (fun ω => f (coord 0 ω)) p (draws fourPoint) :=
  memLp_of_bounded (Eventually.of_forall fun _ => hC _) (hf.comp (measurable_coord 0)).aestronglyMeasurable p

theorem four_cases (c : ℝ) : (fourZ c = 0 ∨ fourZ c = 1) ∧ ((fourX c : ℝ) = 0 ∨ (fourX c : ℝ) = 1) := by
  unfold fourZ fourX
  constructor
  · split <;> simp
  · split <;> simp

theorem four_z (m : ℝ → ℝ → ℝ) (p : ENNReal) (j : Fin 1) : MemLp (fun ω => ((fourUnit m (coord 0 ω)).point 1).1 j) p (draws fourPoint) := by
  simp only [four_point]
  refine four_memLp fourZ measurable_fourZ (C := 1) (fun c => ?_) p
  rcases (four_cases c).1 with h | h <;> rw [h] <;> constructor <;> norm_num

theorem four_y {m : ℝ → ℝ → ℝ} (hm : Measurable fun q : ℝ × ℝ => m q.1 q.2) (p : ENNReal) : MemLp (fun ω => (fourUnit m (coord 0 ω)).yv) p (draws fourPoint) := by
  refine four_memLp (fun c => m (fourX c) (fourZ c)) (hm.comp (measurable_fourX.prodMk measurable_fourZ)) (C := |m 0 0| + |m 0 1| + |m 1 0| + |m 1 1|) (fun c => ?_) p
  have a0 := abs_nonneg (m 0 0)
  have a1 := abs_nonneg (m 0 1)
  have a2 := abs_nonneg (m 1 0)
  have a3 := abs_nonneg (m 1 1)
  obtain ⟨h1, h2⟩ := four_cases c
  rw [Set.mem_Icc, ← abs_le]
  rcases h1 with h1 | h1 <;> rcases h2 with h2 | h2 <;> rw [h1, h2] <;> linarith

theorem four_at : fourZ 0 = 0 ∧ fourZ 1 = 0 ∧ fourZ 2 = 1 ∧ fourZ 3 = 1 ∧ fourX 0 = 0 ∧ fourX 1 = 1 ∧ fourX 2 = 0 ∧ fourX 3 = 1 := by
  unfold fourZ fourX
  norm_num

theorem four_nondegenerate (m : ℝ → ℝ → ℝ) : Nondegenerate (draws fourPoint) fun ω => regressor ((fourUnit m (coord 0 ω)).point 1) := by
  intro v hv
  simp only [four_point, regressor_dot'] at hv
  obtain ⟨z0, z1, z2, z3, x0, x1, x2, x3⟩ := four_at
  have h1 := four_ae (p := fun c => v 0 * (fourX c : ℝ) + ∑ j : Fin 1, v j.succ * fourZ c = 0) hv (a := 1) (by simp)
  have h2 := four_ae (p := fun c => v 0 * (fourX c : ℝ) + ∑ j : Fin 1, v j.succ * fourZ c = 0) hv (a := 2) (by simp)
  simp only [x1, z1, x2, z2, Fin.sum_univ_one] at h1 h2
  funext j
  refine Fin.cases ?_ (fun i => ?_) j
  · simpa using h1
  · rw [Subsingleton.elim i 0]; simpa using h2

theorem four_notSeparable (m : ℝ → ℝ → ℝ) : NotSeparable (draws fourPoint) fun ω => (fourUnit m (coord 0 ω)).point 1 := by
  intro v hv h
  simp only [four_point, withOne_dot] at h
  obtain ⟨z0, z1, z2, z3, x0, x1, x2, x3⟩ := four_at
  let p : ℝ → Prop := fun c => ((fourX c : ℝ) = 1 → 0 ≤ v 0 + ∑ j : Fin 1, v j.succ * fourZ c) ∧ ((fourX c : ℝ) = 0 → v 0 + ∑ j : Fin 1, v j.succ * fourZ c ≤ 0)
  have h0 := (four_ae (p := p) h (a := 0) (by simp)).2 (by simp [x0])
  have h1 := (four_ae (p := p) h (a := 1) (by simp)).1 (by simp [x1])
  have h2 := (four_ae (p := p) h (a := 2) (by simp)).2 (by simp [x2])
  have h3 := (four_ae (p := p) h (a := 3) (by simp)).1 (by simp [x3])
  simp only [z0, z1, z2, z3, Fin.sum_univ_one, mul_zero, add_zero, mul_one] at h0 h1 h2 h3
  apply hv
  funext j
  refine Fin.cases ?_ (fun i => ?_) j
  · exact le_antisymm h0 h1
  · rw [Subsingleton.elim i 0]
    show v (Fin.succ 0) = 0
    linarith

/-- the response is a function of exposure and covariate -/
theorem four_response {m : ℝ → ℝ → ℝ} (hm : Measurable fun q : ℝ × ℝ => m q.1 q.2) :
    ResponseMean (draws fourPoint) (fun ω => (fourUnit m (coord 0 ω)).point 1) fun x z => m x (z 0) := by
  unfold ResponseMean
  have hV : Measurable fun ω => (fourUnit m (coord 0 ω)).point 1 := (four_measurable hm).comp (measurable_coord 0)
  have e : (fun ω => ((fourUnit m (coord 0 ω)).point 1).2.2) = fun ω => m ((fourUnit m (coord 0 ω)).point 1).2.1 (((fourUnit m (coord 0 ω)).point 1).1 0) := by
    funext ω
    simp only [four_point]
  rw [e]
  rw [condExp_of_stronglyMeasurable (hV.snd.fst.prodMk hV.fst).comap_le]
  · have : Measurable fun q : ℝ × (Fin 1 → ℝ) => m q.1 (q.2 0) := hm.comp (measurable_fst.prodMk ((measurable_pi_apply 0).comp measurable_snd))
    exact (this.comp (comap_measurable _)).stronglyMeasurable
  · have h1 := (four_y hm 1).integrable le_rfl
    rw [← e]
    exact h1

theorem sigmoid_log_two : Real.sigmoid (-Real.log 2) = 1 / 3 := by
  rw [Real.sigmoid_def, neg_neg, Real.exp_log (by norm_num)]
  norm_num

theorem four_propensity_at (c : ℝ) : Real.sigmoid ((![0, -Real.log 2] : Fin 2 → ℝ) 0 + ∑ j : Fin 1, (![0, -Real.log 2] : Fin 2 → ℝ) j.succ * fourZ c) =
    if fourZ c = 0 then 1 / 2 else 1 / 3 := by
  rcases (four_cases c).1 with h | h
  · rw [h]; simp [Real.sigmoid_def]; norm_num
  · rw [h]; simp [sigmoid_log_two]

theorem four_propensity {m : ℝ → ℝ → ℝ} (hm : Measurable fun q : ℝ × ℝ => m q.1 q.2) :
    PropensityIs (draws fourPoint) (fun ω => (fourUnit m (coord 0 ω)).point 1) fun z => Real.sigmoid ((![0, -Real.log 2] : Fin 2 → ℝ) 0 + ∑ j : Fin 1, (![0, -Real.log 2] : Fin 2 → ℝ) j.succ * z j) := by
  unfold PropensityIs
  have hV : Measurable fun ω => (fourUnit m (coord 0 ω)).point 1 := (four_measurable hm).comp (measurable_coord 0)
  simp only [four_point, four_propensity_at]
  have hzm : Measurable fun ω => (fun _ : Fin 1 => fourZ (coord 0 ω)) := measurable_pi_lambda _ fun _ => measurable_fourZ.comp (measurable_coord 0)
  have hem : Measurable fun c => if fourZ c = 0 then (1 / 2 : ℝ) else 1 / 3 := Measurable.ite (measurable_fourZ (measurableSet_singleton 0)) measurable_const measurable_const
  have hX : Integrable (fun ω => (fourX (coord 0 ω) : ℝ)) (draws fourPoint) :=
    (four_memLp (fun c => (fourX c : ℝ)) measurable_fourX (C := 1) (fun c => by rcases (four_cases c).2 with h | h <;> rw [h] <;> constructor <;> norm_num) 1).integrable le_rfl
  have hE : Integrable (fun ω => if fourZ (coord 0 ω) = 0 then (1 / 2 : ℝ) else 1 / 3) (draws fourPoint) :=
    (four_memLp _ hem (C := 1) (fun c => by split <;> constructor <;> norm_num) 1).integrable le_rfl
  symm
  refine ae_eq_condExp_of_forall_setIntegral_eq hzm.comap_le hX (fun s _ _ => hE.integrableOn) ?_ ?_
  · rintro s ⟨B, hB, rfl⟩ -
    have hB' : MeasurableSet {c : ℝ | (fun _ : Fin 1 => fourZ c) ∈ B} := (measurable_pi_lambda _ fun _ => measurable_fourZ) hB
    have e : ∀ f : ℝ → ℝ, ∫ ω in (fun ω => (fun _ : Fin 1 => fourZ (coord 0 ω))) ⁻¹' B, f (coord 0 ω) ∂draws fourPoint =
        ∫ ω, ({c : ℝ | (fun _ : Fin 1 => fourZ c) ∈ B}.indicator f) (coord 0 ω) ∂draws fourPoint := by
      intro f
      rw [← integral_indicator (hzm hB)]
      rfl
    rw [e (fun c => if fourZ c = 0 then (1 / 2 : ℝ) else 1 / 3), e (fun c => (fourX c : ℝ)), integral_four _ (hem.indicator hB'), integral_four _ (measurable_fourX.indicator hB')]
    obtain ⟨z0, z1, z2, z3, x0, x1, x2, x3⟩ := four_at
    have hi : ∀ (f : ℝ → ℝ) (a : ℝ), {c : ℝ | (fun _ : Fin 1 => fourZ c) ∈ B}.indicator f a = B.indicator (fun _ => f a) fun _ => fourZ a := fun f a => rfl
    simp only [hi, z0, z1, z2, z3, x0, x1, x2, x3]
    by_cases b0 : (fun _ : Fin 1 => (0 : ℝ)) ∈ B <;> by_cases b1 : (fun _ : Fin 1 => (1 : ℝ)) ∈ B <;> simp [b0, b1] <;> norm_num
  · have : Measurable fun z : Fin 1 → ℝ => if z 0 = 0 then (1 / 2 : ℝ) else 1 / 3 :=
      Measurable.ite ((measurable_pi_apply 0) (measurableSet_singleton 0)) measurable_const measurable_const
    exact (this.comp (comap_measurable _)).stronglyMeasurable.aestronglyMeasurable

/-- a fresh parameter -/
noncomputable def fourNew : AIPW (List ℝ → ℝ) (List ℝ → ℝ) ℝ := new 1 (fun _ => 0) (fun _ => 0) 10 (1 / 20)

theorem four_regular : Regular 1 (fun _ => True) (fun _ => True) 10 (1 / 20) fourNew := ⟨rfl, trivial, trivial, rfl, rfl⟩

/-- the arm runs on these units -/
theorem four_runs {W : Type} (rng : Rng W ℝ) (w : ℕ → W) (m : ℝ → ℝ → ℝ) : ∃ (s : ℕ → (ℕ → ℝ) → ArmState (AIPW (List ℝ → ℝ) (List ℝ → ℝ) ℝ) (Cell ℝ) ℝ)
    (ci : ℕ → (ℕ → ℝ) → Fl ℝ × Fl ℝ), (∀ ω, s 0 ω = init fourNew) ∧
      ∀ ω, Streams 1 (LinReg.demoCfg .clt) (ops (idealRidge 1) idealLogistic) rng (fun i => fourUnit m (coord i ω)) (fun _ => 3) (.fin (1 / 20)) (fun n => s n ω) w fun n => ci n ω := by
  have h := C98_updates_succeed (k := 1) (cfg := LinReg.demoCfg .clt) (size := fun _ => 3) (μ := 10) (κ := 1 / 20) (by norm_num) (idealRidge_isRidge (alpha := 1) (by norm_num))
    idealLogistic_isLogistic (by norm_num) (by norm_num) (by norm_num) rng (by simp) (δ := 1 / 20) (by norm_num) (by norm_num)
    (Or.inl rfl) rfl w
  choose s ci h0 h1 _ using fun ω : ℕ → ℝ => h (fun i => fourUnit m (coord i ω)) (fun n => ⟨_, rfl⟩) (fun i => rfl) (fun i => four_binary m _) (init fourNew) rfl rfl four_regular
  exact ⟨fun n ω => s ω n, fun n ω => ci ω n, h0, h1⟩

/-- non-vacuity of `C98_updates_succeed`, `C98_propensity_logistic` and `C98_intervals_converge` (hence of `C98_estimates_converge`): the response
`1 + x z` is not linear, the propensities 1/2 and 1/3 are logistic, the effect is 1/2 -/
example {W : Type} (rng : Rng W ℝ) (w : ℕ → W) : ∃ (s : ℕ → (ℕ → ℝ) → ArmState (AIPW (List ℝ → ℝ) (List ℝ → ℝ) ℝ) (Cell ℝ) ℝ) (ci : ℕ → (ℕ → ℝ) → Fl ℝ × Fl ℝ) (v v' : ℝ),
    (∀ ω, Streams 1 (LinReg.demoCfg .clt) (ops (idealRidge 1) idealLogistic) rng (fun i => fourUnit (fun x z => 1 + x * z) (coord i ω)) (fun _ => 3) (.fin (1 / 20)) (fun n => s n ω) w
      fun n => ci n ω) ∧
    (∀ᵐ ω ∂draws fourPoint, EstimatesConverge (fun n => s n ω) (1 / 2) v) ∧ ∀ᵐ ω ∂draws fourPoint, IntervalsConverge (fun n => ci n ω) v' := by
  have h := four_runs rng w
  have hm : Measurable fun q : ℝ × ℝ => (fun x z => 1 + x * z) q.1 q.2 := by fun_prop
  obtain ⟨s, ci, h0, h1⟩ := h fun x z => 1 + x * z
  have hV : Measurable fun ω => (fourUnit (fun x z => 1 + x * z) (coord 0 ω)).point 1 := (four_measurable hm).comp (measurable_coord 0)
  have hreg : ∀ᵐ ω ∂draws fourPoint, Regular 1 (fun _ => True) (fun _ => True) 10 (1 / 20) (s 0 ω).eta := Eventually.of_forall fun ω => by rw [h0]; exact four_regular
  have hnd := four_nondegenerate fun x z => 1 + x * z
  have hnd1 := (four_notSeparable fun x z => 1 + x * z).nondegenerate
  have hbin0 : ∀ᵐ ω ∂draws fourPoint, ((fourUnit (fun x z => 1 + x * z) (coord 0 ω)).point 1).2.1 = 0 ∨ ((fourUnit (fun x z => 1 + x * z) (coord 0 ω)).point 1).2.1 = 1 :=
    Eventually.of_forall fun ω => four_binary (fun x z => 1 + x * z) _
  obtain ⟨v, hv⟩ := C98_propensity_logistic (U := fun i ω => fourUnit (fun x z => 1 + x * z) (coord i ω)) (s := s) (ci := ci) (θ := ![0, -Real.log 2]) (by norm_num)
    (four_iid hm) hV (fun i ω => four_binary (fun x z => 1 + x * z) _) (fun j => four_z (fun x z => 1 + x * z) 4 j) (four_y hm 4) hnd hnd1 (four_response hm) (fun x => by fun_prop)
    (by
      simp only [four_point]
      exact (four_memLp (fun c => 1 + 1 * fourZ c) (by have := measurable_fourZ; fun_prop) (C := 2) (fun c => by rcases (four_cases c).1 with h | h <;> rw [h] <;> constructor <;> norm_num) 1).integrable le_rfl)
    (by
      simp only [four_point]
      exact (four_memLp (fun c => 1 + 0 * fourZ c) (by have := measurable_fourZ; fun_prop) (C := 2) (fun c => by rcases (four_cases c).1 with h | h <;> rw [h] <;> constructor <;> norm_num) 1).integrable le_rfl)
    (four_propensity hm) (Eventually.of_forall fun ω => by
      simp only [four_point, four_propensity_at]
      split <;> norm_num) (idealRidge_isRidge (alpha := 1) (by norm_num)) (by norm_num) idealLogistic_isLogistic (by norm_num) (by norm_num) (by norm_num) (by simp)
    (Eventually.of_forall h1) hreg
  obtain ⟨b, hb⟩ := Nondegenerate.exists_leastSquares hnd (regressor_memLp hV.aemeasurable hbin0 fun j => four_z (fun x z => 1 + x * z) 2 j) (four_y (m := fun x z => 1 + x * z) hm 2)
  have hθ := logistic_correct hV hbin0 (fun j => (four_z (fun x z => 1 + x * z) 1 j).integrable le_rfl) hnd1 (four_propensity hm)
  have hi := C98_intervals_converge (U := fun i ω => fourUnit (fun x z => 1 + x * z) (coord i ω)) (s := s) (ci := ci) (by norm_num)
    (four_iid hm) (fun i ω => four_binary (fun x z => 1 + x * z) _) (fun j => four_z (fun x z => 1 + x * z) 8 j) (four_y hm 8) hnd hb hθ (idealRidge_isRidge (alpha := 1) (by norm_num)) (by norm_num) idealLogistic_isLogistic
    (by norm_num) (by norm_num) (by norm_num) (by simp) (Or.inl rfl) (Eventually.of_forall h1) hreg
  refine ⟨s, ci, v, _, h1, ?_, hi⟩
  have e : ∫ ω, ((1 : ℝ) + 1 * ((fourUnit (fun x z => 1 + x * z) (coord 0 ω)).point 1).1 0 - (1 + 0 * ((fourUnit (fun x z => 1 + x * z) (coord 0 ω)).point 1).1 0)) ∂draws fourPoint = 1 / 2 := by
    simp only [four_point]
    rw [integral_four (fun c => (1 : ℝ) + 1 * fourZ c - (1 + 0 * fourZ c)) (by have := measurable_fourZ; fun_prop)]
    obtain ⟨z0, z1, z2, z3, -⟩ := four_at
    rw [z0, z1, z2, z3]
    norm_num
  rw [e] at hv
  exact hv

/-- non-vacuity of `C98_response_linear`: response `2 x + 3 z` -/
example {W : Type} (rng : Rng W ℝ) (w : ℕ → W) : ∃ (s : ℕ → (ℕ → ℝ) → ArmState (AIPW (List ℝ → ℝ) (List ℝ → ℝ) ℝ) (Cell ℝ) ℝ) (ci : ℕ → (ℕ → ℝ) → Fl ℝ × Fl ℝ) (v : ℝ),
    (∀ ω, Streams 1 (LinReg.demoCfg .clt) (ops (idealRidge 1) idealLogistic) rng (fun i => fourUnit (fun x z => 2 * x + 3 * z) (coord i ω)) (fun _ => 3) (.fin (1 / 20)) (fun n => s n ω) w
      fun n => ci n ω) ∧ ∀ᵐ ω ∂draws fourPoint, EstimatesConverge (fun n => s n ω) 2 v := by
  have h := four_runs rng w
  have hm : Measurable fun q : ℝ × ℝ => (fun x z => 2 * x + 3 * z) q.1 q.2 := by fun_prop
  obtain ⟨s, ci, h0, h1⟩ := h fun x z => 2 * x + 3 * z
  have hV : Measurable fun ω => (fourUnit (fun x z => 2 * x + 3 * z) (coord 0 ω)).point 1 := (four_measurable hm).comp (measurable_coord 0)
  have hreg : ∀ᵐ ω ∂draws fourPoint, Regular 1 (fun _ => True) (fun _ => True) 10 (1 / 20) (s 0 ω).eta := Eventually.of_forall fun ω => by rw [h0]; exact four_regular
  obtain ⟨v, hv⟩ := C98_response_linear (U := fun i ω => fourUnit (fun x z => 2 * x + 3 * z) (coord i ω)) (s := s) (ci := ci) (b := ![2, 3]) (by norm_num)
    (four_iid hm) hV (fun i ω => four_binary (fun x z => 2 * x + 3 * z) _) (fun j => four_z (fun x z => 2 * x + 3 * z) 4 j) (four_y hm 4) (four_nondegenerate _) (four_notSeparable _) (by
      have := four_response (m := fun x z => 2 * x + 3 * z) hm
      simpa [Fin.sum_univ_one] using this) (idealRidge_isRidge (alpha := 1) (by norm_num)) (by norm_num) idealLogistic_isLogistic (by norm_num) (by norm_num) (by norm_num) (by simp)
    (Eventually.of_forall h1) hreg
  exact ⟨s, ci, v, h1, hv⟩

end AIPW
end Verif
