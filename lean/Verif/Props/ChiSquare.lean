import Verif.Lemmas.ChiSquare2
import Verif.Props.Consistency

/-!
# Property C92: coverage of CHI2 intervals; convergence of CHI2 intervals (C91)
-/

set_option linter.unusedSectionVars false

namespace Verif
namespace Arm
open MeasureTheory ProbabilityTheory Filter Topology
variable {E β W Ω : Type} [MeasurableSpace Ω] {P : Measure Ω} [IsProbabilityMeasure P] {X : ℕ → Ω → ℝ}

/-- both ends of the CHI2 intervals along one sequence of updates -/
theorem chi2_path {ys : ℕ → List ℝ} (hys0 : ∀ n, (ys n).length = n) {m0 v : ℝ} (hm0 : Tendsto (fun n => pmean (ys n)) atTop (𝓝 m0))
    (hv : Tendsto (fun n => pvar (ys n)) atTop (𝓝 v))
    {cfg : SSConfig β ℝ} (halg : cfg.alg = .chi2) {ops : EtaOps E β ℝ} (hrep : ScoreRepeatable ops) {rng : Rng W ℝ} {δ : ℝ}
    {N : ℕ → ℕ} (hN : Tendsto N atTop atTop)
    {d : ℕ → ExpData β} {s s' : ℕ → ArmState E β ℝ} {w w' : ℕ → W} {lo hi : ℕ → Fl ℝ} {xs : ℕ → List ℝ}
    (hup : ∀ n, ssUpdate cfg ops realLib rng (d n) (.fin δ) (s n, w n) = (.ok (lo n, hi n), s' n, w' n))
    (hev : ∀ n, EvaluatedOn ops (s' n) (xs n)) {ε : ℕ → ℝ} (hε : Tendsto ε atTop (𝓝 0)) (hc : ∀ n, Close 2 (ε n) (xs n) (ys (N n))) :
    ∃ l u : ℕ → ℝ, (∀ᶠ n in atTop, lo n = .fin (l n) ∧ hi n = .fin (u n)) ∧ Tendsto l atTop (𝓝 v) ∧ Tendsto u atTop (𝓝 v) := by
  obtain ⟨a1, a2⟩ := pvar_tendsto hN hys0 hm0 hv hε hc
  obtain ⟨h0, h1', -⟩ := chi2_evaluated halg hrep (hup 0) (hev 0)
  have hlen : ∀ n, (xs n).length = N n := fun n => (hc n).1.trans (hys0 _)
  have hN1 : Tendsto (fun n => N n - 1) atTop atTop := (tendsto_sub_atTop_nat 1).comp hN
  have key : ∀ p, 0 < p → p < 1 → Tendsto (fun n => pvar (xs n) / (chiQ (N n - 1) p / (N n - 1 : ℕ))) atTop (𝓝 v) := by
    intro p hp0 hp1
    have := a2.div ((chiQ_ratio hp0 hp1).comp hN1) one_ne_zero
    rw [div_one] at this
    exact this
  refine ⟨_, _, ?_, key (1 - δ / 2) (by linarith) (by linarith), key (δ / 2) (by linarith) (by linarith)⟩
  filter_upwards [hN.eventually (eventually_ge_atTop 2)] with n hn
  obtain ⟨-, -, -, -, he⟩ := chi2_evaluated halg hrep (hup n) (hev n)
  obtain ⟨m, hm⟩ : ∃ m, N n = m + 1 := ⟨N n - 1, by omega⟩
  obtain ⟨e1, e2⟩ := he m (by omega) ((hlen n).trans hm)
  rw [e1, e2, hm, Nat.add_sub_cancel, div_div_eq_mul_div, div_div_eq_mul_div]
  exact ⟨rfl, rfl⟩

/-- **C91** Almost surely both ends of the CHI2 interval converge to the variance. -/
theorem C91_chi2_interval_converges (hX : Iid P X) (h2 : MemLp (X 0) 2 P)
    (cfg : SSConfig β ℝ) (halg : cfg.alg = .chi2) (ops : EtaOps E β ℝ) (hrep : ScoreRepeatable ops) (rng : Rng W ℝ) (δ : ℝ)
    (N : ℕ → ℕ) (hN : Tendsto N atTop atTop)
    (d : ℕ → Ω → ExpData β) (s s' : ℕ → Ω → ArmState E β ℝ) (w w' : ℕ → Ω → W) (lo hi : ℕ → Ω → Fl ℝ) (xs : ℕ → Ω → List ℝ)
    (hup : ∀ n ω, ssUpdate cfg ops realLib rng (d n ω) (.fin δ) (s n ω, w n ω) = (.ok (lo n ω, hi n ω), s' n ω, w' n ω))
    (hev : ∀ n ω, EvaluatedOn ops (s' n ω) (xs n ω))
    (hcl : ∀ᵐ ω ∂P, ∃ ε : ℕ → ℝ, Tendsto ε atTop (𝓝 0) ∧ ∀ n, Close 2 (ε n) (xs n ω) (sample X (N n) ω)) :
    ∀ᵐ ω ∂P, ∃ l u : ℕ → ℝ, (∀ᶠ n in atTop, lo n ω = .fin (l n) ∧ hi n ω = .fin (u n)) ∧
      Tendsto l atTop (𝓝 Var[X 0; P]) ∧ Tendsto u atTop (𝓝 Var[X 0; P]) := by
  filter_upwards [consistent2 hX h2, hcl] with ω h1 hc
  obtain ⟨ε, hε, hc⟩ := hc
  exact chi2_path (fun n => length_sample n ω) h1.1 h1.2 halg hrep hN (fun n => hup n ω) (fun n => hev n ω) hε hc

/-! ## C92 -/

/-- **C92 (partial)** The coverage of the CHI2 interval has a limit of at least `1 - delta` as the number of evaluated units grows,
if the variance of the squared deviation of the scores is at most `2 sigma⁴` (the kurtosis is at most that of a normal distribution, 3), and the
limit is `1 - delta` if there is equality.  Missing: all other scores (`C92_level_violated`), and coverage of all intervals at once
(`C92_sequence_violated`). -/
theorem C92_chi2_coverage_partial (hX : Iid P X) (h4 : MemLp (X 0) 4 P) (hw : varOfSq P (X 0) ≠ 0)
    (hkurt : varOfSq P (X 0) ≤ 2 * Var[X 0; P] ^ 2)
    (cfg : SSConfig β ℝ) (halg : cfg.alg = .chi2) (ops : EtaOps E β ℝ) (hrep : ScoreRepeatable ops) (rng : Rng W ℝ) (δ : ℝ)
    (N : ℕ → ℕ) (hN : Tendsto N atTop atTop)
    (d : ℕ → Ω → ExpData β) (s s' : ℕ → Ω → ArmState E β ℝ) (w w' : ℕ → Ω → W) (lo hi : ℕ → Ω → Fl ℝ)
    (hup : ∀ n ω, ssUpdate cfg ops realLib rng (d n ω) (.fin δ) (s n ω, w n ω) = (.ok (lo n ω, hi n ω), s' n ω, w' n ω))
    (hev : ∀ n ω, EvaluatedOn ops (s' n ω) (sample X (N n) ω)) :
    ∃ p, Tendsto (fun n => P {ω | Fl.Covers (lo n ω) (hi n ω) Var[X 0; P]}) atTop (𝓝 p) ∧ ENNReal.ofReal (1 - δ) ≤ p ∧
      (varOfSq P (X 0) = 2 * Var[X 0; P] ^ 2 → p = ENNReal.ofReal (1 - δ)) := by
  obtain ⟨⟨h0, h1⟩, hlim⟩ := chi2_limit hX h4 hw halg hrep hN hup hev
  have hw0 : 0 < varOfSq P (X 0) := lt_of_le_of_ne (variance_nonneg _ _) hw.symm
  have hσ := var_ne_zero h4 hw
  have hs := Real.sqrt_pos.mpr hw0
  have hnum : √2 * Var[X 0; P] = √(2 * Var[X 0; P] ^ 2) := by rw [Real.sqrt_mul (by norm_num), Real.sqrt_sq hσ.le]
  have hr : 1 ≤ √2 * Var[X 0; P] / √(varOfSq P (X 0)) := by
    rw [le_div_iff₀ hs, one_mul, hnum]
    exact Real.sqrt_le_sqrt hkurt
  have z1 := quantile_neg (p := δ / 2) (by linarith) (by linarith)
  have z2 := quantile_pos (p := 1 - δ / 2) (by linarith) (by linarith)
  have hb := gaussian_between (p := δ / 2) (q := 1 - δ / 2) (by linarith) (by linarith) (by linarith)
  rw [show 1 - δ / 2 - δ / 2 = 1 - δ by ring] at hb
  refine ⟨_, hlim, ?_, fun he => ?_⟩
  · rw [← hb]
    refine measure_mono (Set.Icc_subset_Icc ?_ ?_) <;> nlinarith
  · rw [hnum, ← he, div_self hs.ne', one_mul, one_mul, hb]

/-- **C92 (violated)** For all scores with a kurtosis above 3 the coverage of the CHI2 interval tends to less than `1 - delta`. -/
theorem C92_level_violated (hX : Iid P X) (h4 : MemLp (X 0) 4 P) (hkurt : 2 * Var[X 0; P] ^ 2 < varOfSq P (X 0))
    (cfg : SSConfig β ℝ) (halg : cfg.alg = .chi2) (ops : EtaOps E β ℝ) (hrep : ScoreRepeatable ops) (rng : Rng W ℝ) (δ : ℝ)
    (N : ℕ → ℕ) (hN : Tendsto N atTop atTop)
    (d : ℕ → Ω → ExpData β) (s s' : ℕ → Ω → ArmState E β ℝ) (w w' : ℕ → Ω → W) (lo hi : ℕ → Ω → Fl ℝ)
    (hup : ∀ n ω, ssUpdate cfg ops realLib rng (d n ω) (.fin δ) (s n ω, w n ω) = (.ok (lo n ω, hi n ω), s' n ω, w' n ω))
    (hev : ∀ n ω, EvaluatedOn ops (s' n ω) (sample X (N n) ω)) :
    ∃ p, Tendsto (fun n => P {ω | Fl.Covers (lo n ω) (hi n ω) Var[X 0; P]}) atTop (𝓝 p) ∧ p < ENNReal.ofReal (1 - δ) := by
  have hw0 : 0 < varOfSq P (X 0) := lt_of_le_of_lt (by positivity) hkurt
  obtain ⟨⟨h0, h1⟩, hlim⟩ := chi2_limit hX h4 hw0.ne' halg hrep hN hup hev
  have hσ := var_ne_zero h4 hw0.ne'
  have hs := Real.sqrt_pos.mpr hw0
  have hnum : √2 * Var[X 0; P] = √(2 * Var[X 0; P] ^ 2) := by rw [Real.sqrt_mul (by norm_num), Real.sqrt_sq hσ.le]
  have hr : √2 * Var[X 0; P] / √(varOfSq P (X 0)) < 1 := by
    rw [div_lt_one hs, hnum]
    exact Real.sqrt_lt_sqrt (by positivity) hkurt
  have hr0 : 0 < √2 * Var[X 0; P] / √(varOfSq P (X 0)) := by positivity
  set r := √2 * Var[X 0; P] / √(varOfSq P (X 0))
  have z1 := quantile_neg (p := δ / 2) (by linarith) (by linarith)
  have z2 := quantile_pos (p := 1 - δ / 2) (by linarith) (by linarith)
  have hb := gaussian_between (p := δ / 2) (q := 1 - δ / 2) (by linarith) (by linarith) (by linarith)
  rw [show 1 - δ / 2 - δ / 2 = 1 - δ by ring] at hb
  refine ⟨_, hlim, ?_⟩
  rw [← hb]
  set a := quantile (gaussianReal 0 1) (δ / 2)
  set b := quantile (gaussianReal 0 1) (1 - δ / 2)
  have hrb : r * b < b := by nlinarith
  have hra : a ≤ r * a := by nlinarith
  have hpos : 0 < gaussianReal 0 1 (Set.Ioc (r * b) b) := by
    rw [pos_iff_ne_zero]
    intro h
    have := gaussianReal_absolutelyContinuous' 0 one_ne_zero h
    rw [Real.volume_Ioc, ENNReal.ofReal_eq_zero] at this
    linarith
  have hsub : Set.Icc (r * a) (r * b) ∪ Set.Ioc (r * b) b ⊆ Set.Icc a b := by
    rintro x (⟨h1, h2⟩ | ⟨h1, h2⟩)
    · exact ⟨hra.trans h1, h2.trans hrb.le⟩
    · have : 0 < r * b := by positivity
      exact ⟨by linarith, h2⟩
  have hd : Disjoint (Set.Icc (r * a) (r * b)) (Set.Ioc (r * b) b) := by
    rw [Set.disjoint_left]
    rintro x ⟨-, h1⟩ ⟨h2, -⟩
    linarith
  calc gaussianReal 0 1 (Set.Icc (r * a) (r * b)) < gaussianReal 0 1 (Set.Icc (r * a) (r * b)) + gaussianReal 0 1 (Set.Ioc (r * b) b) :=
        ENNReal.lt_add_right (measure_ne_top _ _) hpos.ne'
    _ = gaussianReal 0 1 (Set.Icc (r * a) (r * b) ∪ Set.Ioc (r * b) b) := (measure_union hd measurableSet_Ioc).symm
    _ ≤ _ := measure_mono hsub

/-- **C92 (violated)** The CHI2 intervals are not a confidence sequence: along every sequence of updates with more and more evaluated units,
almost surely infinitely many intervals lie entirely below the variance. -/
theorem C92_sequence_violated (hX : Iid P X) (hm : ∀ i, Measurable (X i)) (h4 : MemLp (X 0) 4 P) (hw : varOfSq P (X 0) ≠ 0)
    (cfg : SSConfig β ℝ) (halg : cfg.alg = .chi2) (ops : EtaOps E β ℝ) (hrep : ScoreRepeatable ops) (rng : Rng W ℝ) (δ : ℝ)
    (N : ℕ → ℕ) (hN : Tendsto N atTop atTop)
    (d : ℕ → Ω → ExpData β) (s s' : ℕ → Ω → ArmState E β ℝ) (w w' : ℕ → Ω → W) (lo hi : ℕ → Ω → Fl ℝ)
    (hup : ∀ n ω, ssUpdate cfg ops realLib rng (d n ω) (.fin δ) (s n ω, w n ω) = (.ok (lo n ω, hi n ω), s' n ω, w' n ω))
    (hev : ∀ n ω, EvaluatedOn ops (s' n ω) (sample X (N n) ω)) :
    (∀ᵐ ω ∂P, ∃ᶠ n in atTop, (hi n ω).lt (.fin Var[X 0; P]) = true) ∧
    P {ω | ∀ n, Fl.Covers (lo n ω) (hi n ω) Var[X 0; P]} = 0 := by
  obtain ⟨ω0⟩ : Nonempty Ω := P.nonempty_of_neZero
  obtain ⟨h0, h1, -⟩ := chi2_evaluated halg hrep (hup 0 ω0) (hev 0 ω0)
  have hσ := var_ne_zero h4 hw
  have hN1 : Tendsto (fun n => N n - 1) atTop atTop := (tendsto_sub_atTop_nat 1).comp hN
  have hq := ((chiQ_limit (p := δ / 2) (by linarith) (by linarith)).comp hN1).const_mul Var[X 0; P]
  set L := Var[X 0; P] * (√2 * quantile (gaussianReal 0 1) (δ / 2))
  have h : ∀ᵐ ω ∂P, ∃ᶠ n in atTop, (hi n ω).lt (.fin Var[X 0; P]) = true := by
    filter_upwards [var_below hX hm h4 hw hN] with ω hω
    obtain ⟨c, hc⟩ := exists_nat_gt (-L + 1)
    have hev2 : ∀ᶠ n in atTop, L - 1 < _ := hq.eventually (lt_mem_nhds (by linarith))
    refine ((hω c).and_eventually (hev2.and (hN.eventually (eventually_ge_atTop 2)))).mono ?_
    rintro n ⟨a1, a2, a3⟩
    obtain ⟨-, -, -, -, he⟩ := chi2_evaluated halg hrep (hup n ω) (hev n ω)
    obtain ⟨k, hk⟩ : ∃ k, N n = k + 1 := ⟨N n - 1, by omega⟩
    have hk0 : 0 < k := by omega
    have hk' : (0 : ℝ) < k := by exact_mod_cast hk0
    obtain ⟨-, e2⟩ := he k hk0 ((length_sample _ ω).trans hk)
    rw [e2]
    have q2 := chiQ_pos hk0 (show 0 < δ / 2 by linarith) (by linarith)
    show decide (pvar (sample X (N n) ω) * k / chiQ k (δ / 2) < Var[X 0; P]) = true
    simp only [Function.comp_apply, hk, Nat.add_sub_cancel] at a1 a2 ⊢
    have hs : 0 < √((k + 1 : ℕ) : ℝ) := Real.sqrt_pos.mpr (by positivity)
    rw [decide_eq_true_eq, div_lt_iff₀ q2]
    have b1 : -(c : ℝ) / √((k + 1 : ℕ) : ℝ) < Var[X 0; P] * (chiQ k (δ / 2) / k - 1) := by
      rw [div_lt_iff₀ hs]
      linarith
    have b2 : pvar (sample X (k + 1) ω) < Var[X 0; P] * (chiQ k (δ / 2) / k) := by
      rw [neg_div] at b1
      linarith
    rw [mul_div_assoc', lt_div_iff₀ hk'] at b2
    exact b2
  refine ⟨h, measure_mono_null ?_ h⟩
  intro ω hω hf
  obtain ⟨n, hn⟩ := hf.exists
  have h1 := (hω n).2
  revert hn h1
  cases hi n ω with
  | fin x =>
    intro hn h1
    rw [fin_le'] at h1
    have hn' : x < Var[X 0; P] := of_decide_eq_true hn
    linarith
  | _ => simp [Fl.lt, Fl.le, Fl.eq]

/-! ## Examples -/

/-- 1 with probability 1/10, 0 otherwise -/
noncomputable def rare : Measure ℝ := ENNReal.ofReal (9 / 10) • Measure.dirac 0 + ENNReal.ofReal (1 / 10) • Measure.dirac 1

instance : IsProbabilityMeasure rare := by
  constructor
  simp only [rare, Measure.coe_add, Measure.coe_smul, Pi.add_apply, Pi.smul_apply, measure_univ, smul_eq_mul, mul_one]
  rw [← ENNReal.ofReal_add (by norm_num) (by norm_num)]
  norm_num

theorem integral_rare (f : ℝ → ℝ) : ∫ x, f x ∂rare = 9 / 10 * f 0 + 1 / 10 * f 1 := by
  unfold rare
  have i1 : ∀ (c : ℝ) (x : ℝ), Integrable f (ENNReal.ofReal c • Measure.dirac x) := fun c x =>
    (integrable_dirac (by simp)).smul_measure ENNReal.ofReal_ne_top
  rw [integral_add_measure (i1 _ _) (i1 _ _), integral_smul_measure, integral_smul_measure, integral_dirac, integral_dirac]
  simp only [smul_eq_mul]
  rw [ENNReal.toReal_ofReal (by norm_num), ENNReal.toReal_ofReal (by norm_num)]

theorem mean_rare : (draws rare)[coord 0] = 1 / 10 := by
  have := integral_coord (μ := rare) (fun x => x) measurable_id 0
  rw [this, integral_rare]; norm_num

theorem var_rare : Var[coord 0; draws rare] = 9 / 100 := by
  rw [variance_eq_integral (measurable_coord 0).aemeasurable, mean_rare]
  have := integral_coord (μ := rare) (fun x => (x - 1 / 10) ^ 2) (by fun_prop) 0
  rw [this, integral_rare]; norm_num

theorem varOfSq_rare : varOfSq (draws rare) (coord 0) = 36 / 625 := by
  unfold varOfSq
  have hm : Measurable fun ω : ℕ → ℝ => (coord 0 ω - 1 / 10) ^ 2 := ((measurable_coord 0).sub_const _).pow_const 2
  have h1 := integral_coord (μ := rare) (fun x => (x - 1 / 10) ^ 2) (by fun_prop) 0
  rw [mean_rare, variance_eq_integral hm.aemeasurable, h1]
  have h2 := integral_coord (μ := rare) (fun x => ((x - 1 / 10) ^ 2 - ∫ x, (x - 1 / 10) ^ 2 ∂rare) ^ 2) (by fun_prop) 0
  rw [h2, integral_rare, integral_rare]; norm_num

theorem memLp_rare (p : ENNReal) : MemLp (coord 0) p (draws rare) := by
  have h : ∀ᵐ x ∂rare, x ∈ Set.Icc (0 : ℝ) 1 := by
    unfold rare
    rw [ae_add_measure_iff]
    refine ⟨?_, ?_⟩ <;> refine Measure.ae_smul_measure ?_ _ <;> rw [ae_dirac_eq, Filter.eventually_pure] <;> constructor <;> norm_num
  rw [← map_coord (μ := rare) 0] at h
  exact memLp_of_bounded (ae_of_ae_map (measurable_coord 0).aemeasurable h) (measurable_coord 0).aestronglyMeasurable p

theorem chi2_fresh (ys xs : List ℝ) (hne : ys ++ xs ≠ []) (s : ArmState Unit ℝ ℝ) (hs : Fed ys s) :
    ∃ lo hi s', ssUpdate (covCfg .chi2 1) respEta realLib stillRng (pairs xs) (.fin (1 / 10)) (s, ()) = (.ok (lo, hi), s', ()) ∧
      s'.numPulled = s.numPulled + 1 ∧ Fed (ys ++ xs) s' ∧ EvaluatedOn respEta s' (ys ++ xs) :=
  fed_update (covCfg .chi2 1) rfl rfl (1 / 10) (by norm_num) (by norm_num) ys xs hne s hs ⟨_, _, .chi2 rfl⟩

/-- non-vacuity of `C92_chi2_coverage_partial` (three-point scores, kurtosis 2), `C92_level_violated` and `C92_sequence_violated`
(rare events, kurtosis 8.1), for the same fresh arms -/
example : ∃ (s' : ℕ → (ℕ → ℝ) → ArmState Unit ℝ ℝ) (lo hi : ℕ → (ℕ → ℝ) → Fl ℝ),
    (∀ n ω, ssUpdate (covCfg .chi2 1) respEta realLib stillRng (pairs (sample coord (n + 1) ω)) (.fin (1 / 10)) (init (), ()) =
      (.ok (lo n ω, hi n ω), s' n ω, ())) ∧
    (∃ p, Tendsto (fun n => draws (threePoint 1) {ω | Fl.Covers (lo n ω) (hi n ω) (1 / 2)}) atTop (𝓝 p) ∧ ENNReal.ofReal (9 / 10) ≤ p) ∧
    (∃ p, Tendsto (fun n => draws rare {ω | Fl.Covers (lo n ω) (hi n ω) (9 / 100)}) atTop (𝓝 p) ∧ p < ENNReal.ofReal (9 / 10)) ∧
    draws rare {ω | ∀ n, Fl.Covers (lo n ω) (hi n ω) (9 / 100)} = 0 := by
  have h := fun (n : ℕ) (ω : ℕ → ℝ) => chi2_fresh [] (sample coord (n + 1) ω) (sample_ne n ω) (init ()) (Or.inl ⟨rfl, rfl⟩)
  choose lo hi s' h1 h2 h3 h4 using h
  refine ⟨s', lo, hi, h1, ?_, ?_, ?_⟩
  · obtain ⟨p, a1, a2, -⟩ := C92_chi2_coverage_partial (P := draws (threePoint 1)) (X := coord) iid_coord (memLp_three 1 zero_le_one 4)
      (by rw [varOfSq_three]; norm_num) (by rw [varOfSq_three, var_three]; norm_num)
      (covCfg .chi2 1) rfl respEta respEta_repeatable stillRng (1 / 10) (fun n => n + 1) (tendsto_add_atTop_nat 1)
      (fun n ω => pairs (sample coord (n + 1) ω)) (fun _ _ => init ()) s' (fun _ _ => ()) (fun _ _ => ()) lo hi h1 h4
    rw [var_three] at a1
    norm_num at a1 a2 ⊢
    exact ⟨p, a1, a2⟩
  · obtain ⟨p, a1, a2⟩ := C92_level_violated (P := draws rare) (X := coord) iid_coord (memLp_rare 4)
      (by rw [varOfSq_rare, var_rare]; norm_num)
      (covCfg .chi2 1) rfl respEta respEta_repeatable stillRng (1 / 10) (fun n => n + 1) (tendsto_add_atTop_nat 1)
      (fun n ω => pairs (sample coord (n + 1) ω)) (fun _ _ => init ()) s' (fun _ _ => ()) (fun _ _ => ()) lo hi h1 h4
    rw [var_rare] at a1
    norm_num at a1 a2 ⊢
    exact ⟨p, a1, a2⟩
  · have := (C92_sequence_violated (P := draws rare) (X := coord) iid_coord measurable_coord (memLp_rare 4)
      (by rw [varOfSq_rare]; norm_num)
      (covCfg .chi2 1) rfl respEta respEta_repeatable stillRng (1 / 10) (fun n => n + 1) (tendsto_add_atTop_nat 1)
      (fun n ω => pairs (sample coord (n + 1) ω)) (fun _ _ => init ()) s' (fun _ _ => ()) (fun _ _ => ()) lo hi h1 h4).2
    rw [var_rare] at this
    exact this

/-- non-vacuity of `C91_chi2_interval_converges`: disturbed draws -/
example : ∃ (s' : ℕ → (ℕ → ℝ) → ArmState Unit ℝ ℝ) (lo hi : ℕ → (ℕ → ℝ) → Fl ℝ),
    (∀ n ω, ssUpdate (covCfg .chi2 1) respEta realLib stillRng (pairs (disturbed n ω)) (.fin (1 / 10)) (init (), ()) =
      (.ok (lo n ω, hi n ω), s' n ω, ())) ∧
    (∀ᵐ ω ∂draws rare, ∃ l u : ℕ → ℝ, (∀ᶠ n in atTop, lo n ω = .fin (l n) ∧ hi n ω = .fin (u n)) ∧
      Tendsto l atTop (𝓝 (9 / 100)) ∧ Tendsto u atTop (𝓝 (9 / 100))) := by
  have h := fun (n : ℕ) (ω : ℕ → ℝ) => chi2_fresh [] (disturbed n ω) (disturbed_ne n ω) (init ()) (Or.inl ⟨rfl, rfl⟩)
  choose lo hi s' h1 h2 h3 h4 using h
  refine ⟨s', lo, hi, h1, ?_⟩
  have := C91_chi2_interval_converges (P := draws rare) (X := coord) iid_coord (memLp_rare 2)
    (covCfg .chi2 1) rfl respEta respEta_repeatable stillRng (1 / 10) (fun n => n + 1) (tendsto_add_atTop_nat 1)
    (fun n ω => pairs (disturbed n ω)) (fun _ _ => init ()) s' (fun _ _ => ()) (fun _ _ => ()) lo hi disturbed h1 h4 (disturbed_all _)
  rw [var_rare] at this
  exact this

end Arm
end Verif
