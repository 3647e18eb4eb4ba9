import Verif.Lemmas.Coverage5
import Verif.Lemmas.CoverageDemo
import Verif.Lemmas.CoverageDemo2

/-!
# Properties C89 and C90: coverage of the intervals of sample-splitting arms
-/

set_option linter.unusedSectionVars false

namespace Verif
namespace Arm
open MeasureTheory ProbabilityTheory Filter Topology

variable {E β W Ω : Type} [MeasurableSpace Ω] {P : Measure Ω} [IsProbabilityMeasure P] {X : ℕ → Ω → ℝ}

theorem length_sample (n : ℕ) (ω : Ω) : (sample X n ω).length = n := by simp [sample]

/-- the CLT interval contains the variance exactly when the normalised error lies between the quantiles -/
theorem clt_covers {x v se lo hi q1 q2 : ℝ} {n : ℕ} (hn : 0 < n) (hx : 0 ≤ x) (hlo : lo = v + q1 * √(se / n)) (hhi : hi = v + q2 * √(se / n)) :
    Fl.Covers (Fl.maxStep (.fin lo) (.fin 0)) (.fin hi) x ↔ -q2 * √se ≤ √n * (v - x) ∧ √n * (v - x) ≤ -q1 * √se := by
  have hn' : (0 : ℝ) < n := by exact_mod_cast hn
  have hs : 0 < √(n : ℝ) := Real.sqrt_pos.mpr hn'
  unfold Fl.Covers
  rw [maxStep_le' _ _ hx, fin_le', hlo, hhi, Real.sqrt_div' _ hn'.le, and_comm]
  constructor
  · rintro ⟨h1, h2⟩
    have e1 : q2 * (√se / √n) = (q2 * √se) / √n := by ring
    have e2 : q1 * (√se / √n) = (q1 * √se) / √n := by ring
    rw [e1] at h1
    rw [e2] at h2
    have h1' : (x - v) ≤ (q2 * √se) / √n := by linarith
    have h2' : (q1 * √se) / √n ≤ x - v := by linarith
    rw [le_div_iff₀ hs] at h1'
    rw [div_le_iff₀ hs] at h2'
    constructor <;> nlinarith
  · rintro ⟨h1, h2⟩
    have e1 : q2 * (√se / √n) = (q2 * √se) / √n := by ring
    have e2 : q1 * (√se / √n) = (q1 * √se) / √n := by ring
    rw [e1, e2]
    have h1' : (x - v) ≤ (q2 * √se) / √n := by rw [le_div_iff₀ hs]; nlinarith
    have h2' : (q1 * √se) / √n ≤ x - v := by rw [div_le_iff₀ hs]; nlinarith
    constructor <;> linarith

/-- **C89** The interval returned by the `(k+1)`-th update of a CLT arm contains the variance of the scores with a probability
that tends to `1 - delta/(k+1)²` as the number of evaluated units grows, if the scores are independent and identically distributed
with finite fourth moment and a squared deviation that is not constant. -/
theorem C89_clt_coverage (hX : Iid P X) (h4 : MemLp (X 0) 4 P) (hw : varOfSq P (X 0) ≠ 0)
    (cfg : SSConfig β ℝ) (halg : cfg.alg = .clt) (ops : EtaOps E β ℝ) (hrep : ScoreRepeatable ops) (rng : Rng W ℝ)
    (k : ℕ) (δ : ℝ) (N : ℕ → ℕ) (hN : Tendsto N atTop atTop)
    (d : ℕ → Ω → ExpData β) (s s' : ℕ → Ω → ArmState E β ℝ) (w w' : ℕ → Ω → W) (lo hi : ℕ → Ω → Fl ℝ)
    (hk : ∀ n ω, (s n ω).numPulled = k)
    (hup : ∀ n ω, ssUpdate cfg ops realLib rng (d n ω) (.fin δ) (s n ω, w n ω) = (.ok (lo n ω, hi n ω), s' n ω, w' n ω))
    (hev : ∀ n ω, EvaluatedOn ops (s' n ω) (sample X (N n) ω)) :
    Tendsto (fun n => P {ω | Fl.Covers (lo n ω) (hi n ω) Var[X 0; P]}) atTop (𝓝 (ENNReal.ofReal (1 - δ / ((k : ℝ) + 1) ^ 2))) := by
  obtain ⟨ω0⟩ : Nonempty Ω := P.nonempty_of_neZero
  obtain ⟨h0, h1, -⟩ := clt_evaluated halg hrep (hup 0 ω0) (hev 0 ω0)
  set ℓ := δ / ((k : ℝ) + 1) ^ 2 with hℓ
  have hk1 : (1 : ℝ) ≤ ((k : ℝ) + 1) ^ 2 := one_le_pow₀ (by linarith [Nat.cast_nonneg (α := ℝ) k])
  have hl0 : 0 < ℓ := by positivity
  have hl1 : ℓ < 1 := by rw [hℓ, div_lt_one (by positivity)]; linarith
  set q1 := quantile (gaussianReal 0 1) (ℓ / 2)
  set q2 := quantile (gaussianReal 0 1) (1 - ℓ / 2)
  have hw0 : 0 < varOfSq P (X 0) := lt_of_le_of_ne (variance_nonneg _ _) hw.symm
  have hv : (varOfSq P (X 0)).toNNReal ≠ 0 := (Real.toNNReal_pos.mpr hw0).ne'
  have hlim := between_limit (P := P) hv (hX.clt_var h4 (Z := (id : ℝ → ℝ)) (P' := gaussianReal 0 (varOfSq P (X 0)).toNNReal)
      ⟨aemeasurable_id, by simp⟩)
    (A := fun n ω => -q2 * √(pvar (sqDevs (sample X n ω)))) (B := fun n ω => -q1 * √(pvar (sqDevs (sample X n ω))))
    (a := -q2 * √(varOfSq P (X 0))) (b := -q1 * √(varOfSq P (X 0)))
    (fun n => ((aemeas_pvarSq hX n).sqrt).const_mul _) (fun n => ((aemeas_pvarSq hX n).sqrt).const_mul _)
    (by
      filter_upwards [hX.consistent h4] with ω h
      exact ⟨h.2.2.sqrt.const_mul _, h.2.2.sqrt.const_mul _⟩)
  rw [gaussian_scale hw0, gaussian_central (by linarith) (by linarith) (by linarith)] at hlim
  rw [show 1 - ℓ / 2 - ℓ / 2 = 1 - ℓ by ring] at hlim
  refine (hlim.comp hN).congr fun n => ?_
  simp only [Function.comp_apply]
  congr 1
  ext ω
  simp only [Set.mem_ofPred_eq]
  obtain ⟨-, -, e1, -, e2, e3⟩ := clt_evaluated halg hrep (hup n ω) (hev n ω)
  rw [hk] at e2 e3
  rw [e2, e3, length_sample]
  have hpos : 0 < N n := by
    rw [← length_sample (X := X) (N n) ω]
    exact List.length_pos_iff.mpr e1
  exact (clt_covers hpos (variance_nonneg _ _) rfl rfl).symm


/-- configuration of the examples -/
def covCfg (alg : CIAlgorithm) (g : ℝ) : SSConfig ℝ ℝ where
  transform := .ok
  alg := alg
  stable := true
  subG := .fin g
  etaSubG := .fin 1
  tauBound := .fin 1
  burnIn := .fin 2
  rho := .fin 1

theorem sample_ne (n : ℕ) (ω : Ω) : [] ++ sample X (n + 1) ω ≠ [] := by
  intro h
  have := congrArg List.length h
  simp [sample] at this

/-- non-vacuity of C89: fresh arms fed with `n + 1` pairs of units, whose scores are independent draws from a three-point distribution -/
example : ∃ (s' : ℕ → (ℕ → ℝ) → ArmState Unit ℝ ℝ) (lo hi : ℕ → (ℕ → ℝ) → Fl ℝ),
    (∀ n ω, ssUpdate (covCfg .clt 1) respEta realLib stillRng (pairs (sample coord (n + 1) ω)) (.fin (1 / 10)) (init (), ()) =
      (.ok (lo n ω, hi n ω), s' n ω, ())) ∧
    Tendsto (fun n => draws (threePoint 1) {ω | Fl.Covers (lo n ω) (hi n ω) (1 / 2)}) atTop (𝓝 (ENNReal.ofReal (9 / 10))) := by
  have h := fun (n : ℕ) (ω : ℕ → ℝ) => fed_update (w := ()) (covCfg .clt 1) rfl rfl (1 / 10) (by norm_num) (by norm_num) [] (sample coord (n + 1) ω)
    (sample_ne n ω) (init ()) (Or.inl ⟨rfl, rfl⟩) ⟨_, _, .clt _ _ rfl rfl⟩
  choose lo hi s' h1 h2 h3 h4 using h
  refine ⟨s', lo, hi, h1, ?_⟩
  have := C89_clt_coverage (P := draws (threePoint 1)) (X := coord) iid_coord (memLp_three 1 zero_le_one 4) (by rw [varOfSq_three]; norm_num)
    (covCfg .clt 1) rfl respEta respEta_repeatable stillRng 0 (1 / 10) (fun n => n + 1) (tendsto_add_atTop_nat 1)
    (fun n ω => pairs (sample coord (n + 1) ω)) (fun _ _ => init ()) s' (fun _ _ => ()) (fun _ _ => ()) lo hi (fun _ _ => rfl) h1 h4
  rw [var_three] at this
  norm_num at this ⊢
  exact this

/-! ## C90 -/

/-- **C90 (partial)** The coverage of the finite-sample interval has a limit of at least `1 - delta` as the number of evaluated units
grows, if the variance of the squared score is at most `25/128 (sqrt(2 g) + tau)²`, for the scale `g` and the bound `tau` of the arm, and
the nuisance width decreases fast enough.  Missing: scores whose square varies more than that, although they are sub-Gaussian with
scale `g` (`C90_level_violated`), and coverage of all intervals at once (`C90_sequence_violated`). -/
theorem C90_finite_sample_coverage_partial (hX : Iid P X) (h4 : MemLp (X 0) 4 P) (hw : varOfSq P (X 0) ≠ 0)
    (cfg : SSConfig β ℝ) (g τ m : ℝ) (hc : Numbers cfg g τ m) (hsmall : varOfSq P (X 0) ≤ 25 / 128 * (√(2 * g) + τ) ^ 2)
    (ops : EtaOps E β ℝ) (hrep : ScoreRepeatable ops) (rng : Rng W ℝ) (δ : ℝ) (N : ℕ → ℕ) (hN : Tendsto N atTop atTop)
    (d : ℕ → Ω → ExpData β) (s s' : ℕ → Ω → ArmState E β ℝ) (w w' : ℕ → Ω → W) (lo hi : ℕ → Ω → Fl ℝ)
    (hup : ∀ n ω, ssUpdate cfg ops realLib rng (d n ω) (.fin δ) (s n ω, w n ω) = (.ok (lo n ω, hi n ω), s' n ω, w' n ω))
    (hev : ∀ n ω, EvaluatedOn ops (s' n ω) (sample X (N n) ω)) (ew : ℕ → ℝ)
    (hew : ∀ n ω, ops.csWidth (s' n ω).eta (.fin (δ / 2)) cfg.etaSubG cfg.rho = .ok (some (.fin (ew n))))
    (hew0 : Tendsto (fun n => √(N n : ℝ) * ew n ^ 2) atTop (𝓝 0)) :
    ∃ p, Tendsto (fun n => P {ω | Fl.Covers (lo n ω) (hi n ω) Var[X 0; P]}) atTop (𝓝 p) ∧ ENNReal.ofReal (1 - δ) ≤ p := by
  obtain ⟨⟨h0, h1, hg, hτ, hm⟩, hlim⟩ := fs_limit hX h4 hw hc hrep hN hup hev hew hew0
  refine ⟨_, hlim, gaussian_ge (lt_of_le_of_ne (variance_nonneg _ _) hw.symm) ?_ ?_⟩
  · unfold fsLimit; positivity
  · have hw0 : 0 < varOfSq P (X 0) := lt_of_le_of_ne (variance_nonneg _ _) hw.symm
    have hlog := log_four_div h0 h1
    have e : fsLimit g τ δ ^ 2 = 2 * (25 / 128 * (√(2 * g) + τ) ^ 2) * (1 / 2 + Real.log (4 / δ)) := by
      unfold fsLimit
      rw [mul_pow, Real.sq_sqrt hlog.le]; ring
    have h2 : Real.log (4 / δ) ≤ fsLimit g τ δ ^ 2 / (2 * varOfSq P (X 0)) := by
      rw [le_div_iff₀ (by positivity), e]
      nlinarith [mul_le_mul_of_nonneg_right hsmall hlog.le]
    have h3 : Real.exp (-fsLimit g τ δ ^ 2 / (2 * varOfSq P (X 0))) ≤ δ / 4 := by
      rw [neg_div]
      calc Real.exp (-(fsLimit g τ δ ^ 2 / (2 * varOfSq P (X 0)))) ≤ Real.exp (-Real.log (4 / δ)) := Real.exp_le_exp.mpr (by linarith)
        _ = δ / 4 := by rw [Real.exp_neg, Real.exp_log (by positivity), inv_div]
    linarith

/-- a fresh finite-sample arm of the example accepts `n + 1` pairs of units -/
theorem fs_fresh (g : ℝ) (hg : 0 < g) (δ : ℝ) (h0 : 0 < δ) (h1 : δ < 1) (ys xs : List ℝ) (hne : ys ++ xs ≠ []) (s : ArmState Unit ℝ ℝ) (hs : Fed ys s) :
    ∃ lo hi s', ssUpdate (covCfg .finiteSample g) respEta realLib stillRng (pairs xs) (.fin δ) (s, ()) = (.ok (lo, hi), s', ()) ∧
      s'.numPulled = s.numPulled + 1 ∧ Fed (ys ++ xs) s' ∧ EvaluatedOn respEta s' (ys ++ xs) := by
  have a1 : (covCfg .finiteSample g).tauBound.le (.fin 0) = false := by
    rw [Bool.eq_false_iff, Ne]; exact fun h => absurd ((fin_le' 1 0).mp h) (by norm_num)
  have a2 : (covCfg .finiteSample g).burnIn.le (.fin 1) = false := by
    rw [Bool.eq_false_iff, Ne]; exact fun h => absurd ((fin_le' 2 1).mp h) (by norm_num)
  have a3 : (covCfg .finiteSample g).subG.le (.fin 0) = false := by
    rw [Bool.eq_false_iff, Ne]; exact fun h => absurd ((fin_le' g 0).mp h) (not_le.mpr hg)
  refine fed_update (covCfg .finiteSample g) rfl rfl δ h0 h1 ys xs hne s hs ?_
  cases hb : (Fl.fin ((half (ys ++ xs)).nUnits : ℝ)).lt (covCfg .finiteSample g).burnIn with
  | true => exact ⟨_, _, .burnIn _ rfl a1 a2 a3 rfl hb⟩
  | false => exact ⟨_, _, .finite _ rfl a1 a2 a3 rfl hb⟩

/-- non-vacuity of `C90_finite_sample_coverage_partial`: draws from a three-point distribution on -1, 0, 1 -/
example : ∃ (s' : ℕ → (ℕ → ℝ) → ArmState Unit ℝ ℝ) (lo hi : ℕ → (ℕ → ℝ) → Fl ℝ),
    (∀ n ω, ssUpdate (covCfg .finiteSample 1) respEta realLib stillRng (pairs (sample coord (n + 1) ω)) (.fin (1 / 10)) (init (), ()) =
      (.ok (lo n ω, hi n ω), s' n ω, ())) ∧
    ∃ p, Tendsto (fun n => draws (threePoint 1) {ω | Fl.Covers (lo n ω) (hi n ω) (1 / 2)}) atTop (𝓝 p) ∧ ENNReal.ofReal (9 / 10) ≤ p := by
  have h := fun (n : ℕ) (ω : ℕ → ℝ) => fs_fresh 1 one_pos (1 / 10) (by norm_num) (by norm_num) [] (sample coord (n + 1) ω)
    (sample_ne n ω) (init ()) (Or.inl ⟨rfl, rfl⟩)
  choose lo hi s' h1 h2 h3 h4 using h
  refine ⟨s', lo, hi, h1, ?_⟩
  have hs : 1 ≤ √(2 * 1 : ℝ) := Real.one_le_sqrt.mpr (by norm_num)
  have hs2 : (2 : ℝ) ^ 2 ≤ (√(2 * 1 : ℝ) + 1) ^ 2 := pow_le_pow_left₀ (by norm_num) (by linarith) 2
  have hs3 : (1 : ℝ) ^ 4 / 4 ≤ 25 / 128 * (√(2 * 1 : ℝ) + 1) ^ 2 := by
    generalize (√(2 * 1 : ℝ) + 1) ^ 2 = r at hs2
    linarith
  have := C90_finite_sample_coverage_partial (P := draws (threePoint 1)) (X := coord) iid_coord (memLp_three 1 zero_le_one 4)
    (by rw [varOfSq_three]; norm_num) (covCfg .finiteSample 1) 1 1 2 ⟨rfl, rfl, rfl, rfl⟩ (by rw [varOfSq_three]; exact hs3)
    respEta respEta_repeatable stillRng (1 / 10) (fun n => n + 1) (tendsto_add_atTop_nat 1)
    (fun n ω => pairs (sample coord (n + 1) ω)) (fun _ _ => init ()) s' (fun _ _ => ()) (fun _ _ => ()) lo hi h1 h4 (fun _ => 0) (fun _ _ => rfl)
    (by simp)
  rw [var_three] at this
  norm_num at this ⊢
  exact this

/-- **C90 (violated)** There are scores with mean zero that are sub-Gaussian with the scale `g` given to the arm (as variance proxy, hence also
with proxy `g²`), and an exactly known nuisance parameter, for which the finite-sample interval at `delta = 1/10` contains the variance
with a probability that tends to less than 1/100 instead of at least 9/10. -/
theorem C90_level_violated : ∃ (μ : Measure ℝ) (_ : IsProbabilityMeasure μ) (g : ℝ), 1 ≤ g ∧
    HasSubgaussianMGF (coord 0) g.toNNReal (draws μ) ∧ (draws μ)[coord 0] = 0 ∧
    ∃ (s' : ℕ → (ℕ → ℝ) → ArmState Unit ℝ ℝ) (lo hi : ℕ → (ℕ → ℝ) → Fl ℝ),
      (∀ n ω, ssUpdate (covCfg .finiteSample g) respEta realLib stillRng (pairs (sample coord (n + 1) ω)) (.fin (1 / 10)) (init (), ()) =
        (.ok (lo n ω, hi n ω), s' n ω, ())) ∧
      ∃ p, Tendsto (fun n => draws μ {ω | Fl.Covers (lo n ω) (hi n ω) Var[coord 0; draws μ]}) atTop (𝓝 p) ∧ p < ENNReal.ofReal (1 / 100) := by
  refine ⟨threePoint 1000, inferInstance, 1000000, by norm_num, ?_, mean_three _, ?_⟩
  · have := subG_three 1000 (by norm_num)
    norm_num at this ⊢
    exact this
  have h := fun (n : ℕ) (ω : ℕ → ℝ) => fs_fresh 1000000 (by norm_num) (1 / 10) (by norm_num) (by norm_num) [] (sample coord (n + 1) ω)
    (sample_ne n ω) (init ()) (Or.inl ⟨rfl, rfl⟩)
  choose lo hi s' h1 h2 h3 h4 using h
  refine ⟨s', lo, hi, h1, ?_⟩
  obtain ⟨-, hlim⟩ := fs_limit (P := draws (threePoint 1000)) (X := coord) iid_coord (memLp_three 1000 (by norm_num) 4)
    (by rw [varOfSq_three]; norm_num) (cfg := covCfg .finiteSample 1000000) (g := 1000000) (τ := 1) (m := 2) ⟨rfl, rfl, rfl, rfl⟩
    (ops := respEta) respEta_repeatable (rng := stillRng) (δ := 1 / 10) (N := fun n => n + 1) (tendsto_add_atTop_nat 1)
    (d := fun n ω => pairs (sample coord (n + 1) ω)) (s := fun _ _ => init ()) (s' := s') (w := fun _ _ => ()) (w' := fun _ _ => ())
    (lo := lo) (hi := hi) h1 h4 (ew := fun _ => 0) (fun _ _ => rfl) (by simp)
  refine ⟨_, hlim, lt_of_le_of_lt (gaussian_le' (by rw [varOfSq_three]; norm_num)) ?_⟩
  rw [ENNReal.ofReal_lt_ofReal_iff (by norm_num), varOfSq_three]
  have e1 : √((1000 : ℝ) ^ 4 / 4) = 500000 := by
    rw [show (1000 : ℝ) ^ 4 / 4 = 500000 ^ 2 by norm_num]; exact Real.sqrt_sq (by norm_num)
  have e2 : √(2 * 1000000 : ℝ) ≤ 1500 := Real.sqrt_le_iff.mpr ⟨by norm_num, by norm_num⟩
  have e3 : √(1 / 2 + Real.log (4 / (1 / 10))) ≤ 5 := by
    apply Real.sqrt_le_iff.mpr ⟨by norm_num, ?_⟩
    have : Real.log (4 / (1 / 10)) ≤ 4 / (1 / 10) - 1 := Real.log_le_sub_one_of_pos (by norm_num)
    have h40 : Real.log (4 / (1 / 10)) = Real.log 40 := by norm_num
    have h64 : Real.log 40 ≤ 6 * Real.log 2 := by
      rw [← Real.log_rpow (by norm_num)]
      exact Real.log_le_log (by norm_num) (by norm_num)
    have h2 : Real.log 2 ≤ 2 - 1 := Real.log_le_sub_one_of_pos (by norm_num)
    rw [h40]; linarith
  rw [e1, div_lt_iff₀ (by norm_num)]
  unfold fsLimit
  have p1 := Real.sqrt_nonneg (2 * 1000000 : ℝ)
  have p2 := Real.sqrt_nonneg (1 / 2 + Real.log (4 / (1 / 10)))
  have : (√(2 * 1000000 : ℝ) + 1) * √(1 / 2 + Real.log (4 / (1 / 10))) ≤ 1501 * 5 := mul_le_mul (by linarith) e3 p2 (by norm_num)
  nlinarith

/-- **C90 (violated)** The finite-sample intervals are not a confidence sequence: along every sequence of updates with more and more
evaluated units, almost surely infinitely many intervals lie entirely below the variance of the scores, so the probability that all of
them contain it is zero, for independent identically distributed scores with finite fourth moment and a squared deviation that is not
constant. -/
theorem C90_sequence_violated (hX : Iid P X) (hm : ∀ i, Measurable (X i)) (h4 : MemLp (X 0) 4 P) (hw : varOfSq P (X 0) ≠ 0)
    (cfg : SSConfig β ℝ) (g τ m : ℝ) (hc : Numbers cfg g τ m)
    (ops : EtaOps E β ℝ) (hrep : ScoreRepeatable ops) (rng : Rng W ℝ) (δ : ℝ) (N : ℕ → ℕ) (hN : Tendsto N atTop atTop)
    (d : ℕ → Ω → ExpData β) (s s' : ℕ → Ω → ArmState E β ℝ) (w w' : ℕ → Ω → W) (lo hi : ℕ → Ω → Fl ℝ)
    (hup : ∀ n ω, ssUpdate cfg ops realLib rng (d n ω) (.fin δ) (s n ω, w n ω) = (.ok (lo n ω, hi n ω), s' n ω, w' n ω))
    (hev : ∀ n ω, EvaluatedOn ops (s' n ω) (sample X (N n) ω)) (ew : ℕ → Ω → ℝ)
    (hew : ∀ n ω, ops.csWidth (s' n ω).eta (.fin (δ / 2)) cfg.etaSubG cfg.rho = .ok (some (.fin (ew n ω))))
    (hbd : ∀ ω, ∃ C, ∀ n, √(N n : ℝ) * ew n ω ^ 2 ≤ C) :
    (∀ᵐ ω ∂P, ∃ᶠ n in atTop, (hi n ω).lt (.fin Var[X 0; P]) = true) ∧
    P {ω | ∀ n, Fl.Covers (lo n ω) (hi n ω) Var[X 0; P]} = 0 := by
  have h := fs_misses hX hm h4 hw hc hrep hN hup hev hew hbd
  refine ⟨h, measure_mono_null ?_ h⟩
  intro ω hω hf
  obtain ⟨n, hn⟩ := hf.exists
  have h1 := (hω n).2
  revert hn h1
  cases hi n ω with
  | fin x =>
    intro hn h1
    rw [fin_le'] at h1
    have hn' : x < Var[X 0; P] := of_decide_eq_true hn
    linarith
  | _ => simp [Fl.lt, Fl.le, Fl.eq]

/-- the arm of the example after `n` updates with one pair of units each -/
noncomputable def armAfter (ω : ℕ → ℝ) : ℕ → ArmState Unit ℝ ℝ
  | 0 => init ()
  | n + 1 => (ssUpdate (covCfg .finiteSample 1) respEta realLib stillRng (pairs [coord n ω]) (.fin (1 / 10)) (armAfter ω n, ())).2.1

theorem sample_succ (n : ℕ) (ω : Ω) : sample X (n + 1) ω = sample X n ω ++ [X n ω] := by
  simp [sample, List.range_succ]

theorem armAfter_fed (ω : ℕ → ℝ) (n : ℕ) : Fed (sample coord n ω) (armAfter ω n) := by
  induction n with
  | zero => exact Or.inl ⟨rfl, rfl⟩
  | succ n ih =>
    obtain ⟨lo, hi, s', h, -, h2, -⟩ := fs_fresh 1 one_pos (1 / 10) (by norm_num) (by norm_num) (sample coord n ω) [coord n ω] (by simp) _ ih
    rw [armAfter, h, sample_succ]
    exact h2

/-- non-vacuity of `C90_sequence_violated`: one arm, updated with one pair of units at a time -/
example : ∃ (lo hi : ℕ → (ℕ → ℝ) → Fl ℝ),
    (∀ n ω, ssUpdate (covCfg .finiteSample 1) respEta realLib stillRng (pairs [coord n ω]) (.fin (1 / 10)) (armAfter ω n, ()) =
      (.ok (lo n ω, hi n ω), armAfter ω (n + 1), ())) ∧
    draws (threePoint 1) {ω | ∀ n, Fl.Covers (lo n ω) (hi n ω) (1 / 2)} = 0 := by
  have h := fun (n : ℕ) (ω : ℕ → ℝ) => fs_fresh 1 one_pos (1 / 10) (by norm_num) (by norm_num) (sample coord n ω) [coord n ω] (by simp) _
    (armAfter_fed ω n)
  choose lo hi s' h1 h2 h3 h4 using h
  have hs : ∀ n ω, s' n ω = armAfter ω (n + 1) := fun n ω => by rw [armAfter, h1]
  have h1' : ∀ n ω, ssUpdate (covCfg .finiteSample 1) respEta realLib stillRng (pairs [coord n ω]) (.fin (1 / 10)) (armAfter ω n, ()) =
      (.ok (lo n ω, hi n ω), armAfter ω (n + 1), ()) := fun n ω => by rw [h1, hs]
  refine ⟨lo, hi, h1', ?_⟩
  have := (C90_sequence_violated (P := draws (threePoint 1)) (X := coord) iid_coord measurable_coord (memLp_three 1 zero_le_one 4)
    (by rw [varOfSq_three]; norm_num) (covCfg .finiteSample 1) 1 1 2 ⟨rfl, rfl, rfl, rfl⟩
    respEta respEta_repeatable stillRng (1 / 10) (fun n => n + 1) (tendsto_add_atTop_nat 1)
    (fun n ω => pairs [coord n ω]) (fun n ω => armAfter ω n) (fun n ω => armAfter ω (n + 1)) (fun _ _ => ()) (fun _ _ => ()) lo hi h1'
    (fun n ω => by rw [← hs, sample_succ]; exact h4 n ω) (fun _ _ => 0) (fun _ _ => rfl) (fun _ => ⟨0, fun _ => by simp⟩)).2
  rw [var_three] at this
  norm_num at this ⊢
  exact this

end Arm
end Verif
