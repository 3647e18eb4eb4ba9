import Verif.Props.ExampleScm3
import Mathlib.Probability.ProductMeasure

/-!
# Property C101: on the data of the back-door example, the arms recover the effect returned with the SCM
-/

set_option linter.unusedSectionVars false
set_option linter.unusedSimpArgs false

namespace Verif
open MeasureTheory ProbabilityTheory Filter Topology
namespace Example
open Section5 Arm
variable {V W : Type}

theorem dataset_congr {k : ℕ} {z z' : List (List (Cell ℝ))} {x x' y y' : List (Cell ℝ)} (h1 : z = z') (h2 : x = x') (h3 : y = y') :
    ExpData.new (some (.d2 k z)) (some x) (some y) = ExpData.new (some (.d2 k z')) (some x') (some y') := by
  rw [h1, h2, h3]

/-- one unit of the front-door example -/
noncomputable def frontUnit (p beta gamma alpha1 alpha2 u v t e : ℝ) : Obs ℝ :=
  ⟨[.int (trunc (fU p u)), .int (trunc (fZ beta (fX p alpha1 u v) t))], .int (trunc (fX p alpha1 u v)), .flt (fY p gamma alpha2 u (fZ beta (fX p alpha1 u v) t) e)⟩

theorem toData_back (p beta alpha : ℝ) {n : ℕ} {us vs es : List ℝ} (l1 : us.length = n) (l2 : vs.length = n) (l3 : es.length = n) :
    toData (backDoorData p beta alpha us vs es) = Obs.dataset 1 ((List.range n).map fun i => backUnit p beta alpha (us.getD i 0, vs.getD i 0, es.getD i 0)) := by
  unfold toData Obs.dataset backDoorData
  simp only [Cpds.flatten, List.map_map]
  apply dataset_congr <;> apply List.ext_getElem <;> simp +contextual [backUnit, l1, l2, l3, List.getD_eq_getElem]

theorem toData_front (p beta gamma alpha1 alpha2 : ℝ) {n : ℕ} {us vs ts es : List ℝ} (l1 : us.length = n) (l2 : vs.length = n) (l3 : ts.length = n) (l4 : es.length = n) :
    toData (frontDoorData p beta gamma alpha1 alpha2 us vs ts es) =
      Obs.dataset 2 ((List.range n).map fun i => frontUnit p beta gamma alpha1 alpha2 (us.getD i 0) (vs.getD i 0) (ts.getD i 0) (es.getD i 0)) := by
  unfold toData Obs.dataset frontDoorData
  simp only [Cpds.flatten, List.map_map]
  apply dataset_congr <;> apply List.ext_getElem <;> simp +contextual [frontUnit, l1, l2, l3, l4, List.getD_eq_getElem]

theorem trunc_bit_cases (q u : ℝ) : (Cell.int (trunc (bit q u)) : Cell ℝ) = .int 0 ∨ (Cell.int (trunc (bit q u)) : Cell ℝ) = .int 1 := by
  rcases bit_cases q u with h | h <;> rw [h] <;> simp [trunc]

/-- **C101** Whatever the generator, as long as its uniform numbers are in `[0, 1)`, `back_door_scm` returns: the parameters are in the ranges of the code, the effect is 10, and
the SCM generates data of any size, with one binary covariate, a binary exposure and a response for each unit. -/
theorem C101_back_door_returns (r : Rng W) (hr : ∀ w, (r.unif w).1 ∈ Set.Ico (0 : ℝ) 1) (w : W) : ∃ R w', backDoor r w = (.ok R, w') ∧
    R.stats.tau = 10 ∧ R.stats.muZ ∈ Set.Ico (1 / 5 : ℝ) (4 / 5) ∧ R.beta ∈ Set.Ico (-3 : ℝ) 3 ∧ R.alpha ∈ Set.Ico (-(3 / 10) : ℝ) (3 / 10) ∧
    R.stats = backDoorStats R.stats.muZ R.beta R.alpha ∧ backDoorScm r R.stats.muZ R.beta R.alpha = .ok R.scm ∧
    ∀ n x, ∃ us x', us.length = n ∧ BinaryUnits 1 us ∧ generate R.scm n x = (.ok (Obs.dataset 1 us), x') := by
  obtain ⟨a0, a1⟩ := hr w
  obtain ⟨b0, b1⟩ := hr (r.unif w).2
  obtain ⟨c0, c1⟩ := hr (r.unif (r.unif w).2).2
  obtain ⟨S, hS, hg⟩ := C65_backdoor_sampler r (1 / 5 + (4 / 5 - 1 / 5) * (r.unif w).1) (10 * (-(3 / 10) + (3 / 10 - -(3 / 10)) * (r.unif (r.unif w).2).1))
    (-(3 / 10) + (3 / 10 - -(3 / 10)) * (r.unif (r.unif (r.unif w).2).2).1) (by constructor <;> linarith) (by constructor <;> linarith)
  refine ⟨⟨S, backDoorStats (1 / 5 + (4 / 5 - 1 / 5) * (r.unif w).1) (10 * (-(3 / 10) + (3 / 10 - -(3 / 10)) * (r.unif (r.unif w).2).1))
      (-(3 / 10) + (3 / 10 - -(3 / 10)) * (r.unif (r.unif (r.unif w).2).2).1), _, _⟩, (r.unif (r.unif (r.unif w).2).2).2, ?_, rfl, ?_, ?_, ?_, rfl, hS, ?_⟩
  · show ((backDoorScm r _ _ _).map _, _) = _
    rw [hS]
    rfl
  · constructor <;> simp only [backDoorStats] <;> linarith
  · constructor <;> linarith
  · constructor <;> linarith
  · intro n x
    obtain ⟨us, vs, es, w1, w2, w3, h1, h2, h3, h4⟩ := hg n x
    have l1 := drawN_length r.unif n x
    have l2 := drawN_length r.unif n w1
    have l3 := drawN_length r.gauss n w2
    rw [h1] at l1
    rw [h2] at l2
    rw [h3] at l3
    refine ⟨_, w3, ?_, ?_, by simp only [generate, h4]; rw [toData_back _ _ _ l1 l2 l3]⟩
    · simp
    · intro u hu
      obtain ⟨i, -, rfl⟩ := List.mem_map.1 hu
      refine ⟨⟨rfl, fun c hc => ?_⟩, trunc_bit_cases _ _, _, rfl⟩
      rw [List.mem_singleton.1 hc]
      exact trunc_bit_cases _ _

/-- **C101** Whatever the generator, as long as its uniform numbers are in `[0, 1)`, `frontdoor_scm` returns: the parameters are in the ranges of the code, and the SCM generates
data of any size, with two binary covariates, a binary exposure and a response for each unit. -/
theorem C101_front_door_returns (r : Rng W) (hr : ∀ w, (r.unif w).1 ∈ Set.Ico (0 : ℝ) 1) (w : W) : ∃ R w', frontDoor r w = (.ok R, w') ∧
    R.stats.muU ∈ Set.Ico (1 / 5 : ℝ) (4 / 5) ∧ R.beta ∈ Set.Ico (-1 : ℝ) 1 ∧ R.gamma ∈ Set.Ico (5 : ℝ) 10 ∧
    R.alpha1 ∈ Set.Ico (-(3 / 10) : ℝ) (3 / 10) ∧ R.alpha2 ∈ Set.Ico (-(3 / 10) : ℝ) (3 / 10) ∧
    R.stats = frontDoorStats R.stats.muU R.beta R.gamma R.alpha1 R.alpha2 ∧ frontDoorScm r R.stats.muU R.beta R.gamma R.alpha1 R.alpha2 = .ok R.scm ∧
    ∀ n x, ∃ us x', us.length = n ∧ BinaryUnits 2 us ∧ generate R.scm n x = (.ok (Obs.dataset 2 us), x') := by
  let w1 := (r.unif w).2
  let w2 := (r.unif w1).2
  let w3 := (r.unif w2).2
  let w4 := (r.unif w3).2
  obtain ⟨a0, a1⟩ := hr w
  obtain ⟨b0, b1⟩ := hr w1
  obtain ⟨c0, c1⟩ := hr w2
  obtain ⟨d0, d1⟩ := hr w3
  obtain ⟨e0, e1⟩ := hr w4
  obtain ⟨S, hS, hg⟩ := C65_frontdoor_sampler r (1 / 5 + (4 / 5 - 1 / 5) * (r.unif w).1) (-1 + (1 - -1) * (r.unif w1).1) (5 + (10 - 5) * (r.unif w2).1)
    (-(3 / 10) + (3 / 10 - -(3 / 10)) * (r.unif w3).1) (-(3 / 10) + (3 / 10 - -(3 / 10)) * (r.unif w4).1) (by constructor <;> linarith)
  refine ⟨⟨S, frontDoorStats (1 / 5 + (4 / 5 - 1 / 5) * (r.unif w).1) (-1 + (1 - -1) * (r.unif w1).1) (5 + (10 - 5) * (r.unif w2).1)
    (-(3 / 10) + (3 / 10 - -(3 / 10)) * (r.unif w3).1) (-(3 / 10) + (3 / 10 - -(3 / 10)) * (r.unif w4).1), _, _, _, _⟩, (r.unif w4).2, ?_, ?_, ?_, ?_, ?_, ?_, rfl, hS, ?_⟩
  · show ((frontDoorScm r _ _ _ _ _).map _, _) = _
    rw [hS]
    rfl
  · constructor <;> simp only [frontDoorStats] <;> linarith
  · constructor <;> linarith
  · constructor <;> linarith
  · constructor <;> linarith
  · constructor <;> linarith
  · intro n x
    obtain ⟨us, vs, ts, es, x1, x2, x3, x4, h1, h2, h3, h4, h5⟩ := hg n x
    have l1 := drawN_length r.unif n x
    have l2 := drawN_length r.unif n x1
    have l3 := drawN_length r.unif n x2
    have l4 := drawN_length r.gauss n x3
    rw [h1] at l1
    rw [h2] at l2
    rw [h3] at l3
    rw [h4] at l4
    refine ⟨_, x4, ?_, ?_, by simp only [generate, h5]; rw [toData_front _ _ _ _ _ l1 l2 l3 l4]⟩
    · simp
    · intro u hu
      obtain ⟨i, -, rfl⟩ := List.mem_map.1 hu
      refine ⟨⟨rfl, fun c hc => ?_⟩, trunc_bit_cases _ _, _, rfl⟩
      rcases List.mem_pair.1 hc with rfl | rfl <;> exact trunc_bit_cases _ _

theorem unit_measurable (p beta alpha : ℝ) : Measurable fun q => (backUnit p beta alpha q).point 1 := by
  simp only [backUnit_point]
  have h1 : Measurable fun q => (zx p alpha q).1 := measurable_fst.comp (measurable_zx p alpha)
  have h2 : Measurable fun q => (zx p alpha q).2 := measurable_snd.comp (measurable_zx p alpha)
  exact (measurable_pi_lambda _ fun _ => h1).prodMk (h2.prodMk (((h2.const_mul 10).add (h1.const_mul beta)).add (measurable_snd.comp measurable_snd)))

section
variable {Ω : Type} [MeasurableSpace Ω] {P : Measure Ω} [IsProbabilityMeasure P] {U G : ℕ → Ω → ℝ} {a b c : ℝ} {cfg : SSConfig (Cell ℝ) ℝ} {m : ℕ} {δ : ℝ}

/-- **C101** `run_single_arm` with an arm with a `LinearRegressionParameter` on the data of `back_door_scm`, whatever parameters are drawn: with probability one, once enough samples
are taken, the estimated effect is as close as desired to the returned effect, and the variance estimate and both ends of its interval to the asymptotic variance. -/
theorem C101_regression (hN : RandomNumbers P U G) (ha : a ∈ Set.Ico (0 : ℝ) 1) (hc : c ∈ Set.Ico (0 : ℝ) 1) (rng : Verif.Rng V ℝ) (hm : 2 ≤ m)
    (h0 : 0 < δ) (h1 : δ < 1) (halg : cfg.alg = .clt ∨ cfg.alg = .chi2) (hstable : cfg.stable = true) (ht : cfg.transform = ExpData.identityFn)
    {s0 : ArmState (LinReg 1 ℝ) (Cell ℝ) ℝ} (hs : s0.split = none) (hp : s0.numPulled = 0) (hl : 0 < s0.eta.lReg) (cost : Fl ℝ) (v0 : V) :
    ∀ᵐ ω ∂P, ∃ R w, backDoor Numbers.gen (Numbers.start [a, b, c] (fun i => U i ω) (fun i => G i ω) v0) = (.ok R, w) ∧
      Recovers (ssArmOps cfg LinReg.ops realLib (Numbers.rng rng) cost) (fun s => s.ate) (generate R.scm) m (.fin δ) (s0, w) R.stats.tau
        (regressionVariance R.stats.muZ R.beta R.alpha) := by
  have hv := valid_of_draws ha hc
  have hm0 : 0 < m := by omega
  have hT := numbersOf_measurable hN m 0
  have hL := numbersOf_law hN hm0 0
  obtain ⟨S, hS, -⟩ := C65_backdoor_sampler (Numbers.gen (V := V)) (1 / 5 + 3 / 5 * a) (10 * (-(3 / 10) + 3 / 5 * b)) (-(3 / 10) + 3 / 5 * c) hv.le.1 hv.le.2
  have hcons := LinReg.C99_consistent (k := 1) (cfg := cfg) rng
    (U := fun k ω => backUnit (1 / 5 + 3 / 5 * a) (10 * (-(3 / 10) + 3 / 5 * b)) (-(3 / 10) + 3 / 5 * c) (numbersOf U G m k ω))
    ((numbersOf_iid hN hm0).comp (unit_measurable _ _ _)) (fun _ _ => rfl) (fun j => back_memLp_regressor hT hL hv j 2)
    (fun j => back_memLp_prod hT hL hv j 4 (by norm_num)) (back_inverse hT hL hv) (back_leastSquares hT hL hv) hm h0 h1 halg hstable
    (fun ω n => ⟨_, by rw [ht]; rfl⟩) hs hp hl
  rw [back_variance hT hL hv] at hcons
  filter_upwards [recovers_of_consistent (a := a) (b := b) (c := c) hm hv.le.1 hv.le.2 ht hS cost v0 hcons] with ω hω
  refine ⟨_, _, by rw [backDoor_start, hS]; rfl, hω⟩

/-- **C101** The same for an AIPW parameter (ridge regression without intercept for the response, logistic regression for the propensity), when the propensities are clipped at
most at 1/5. -/
theorem C101_aipw {M Q : Type} {R : Predictor M ℝ} {C : Predictor Q ℝ} {SR : M → Prop} {SC : Q → Prop} {lam κ : ℝ} {μ : ℤ}
    (hN : RandomNumbers P U G) (ha : a ∈ Set.Ico (0 : ℝ) 1) (hc : c ∈ Set.Ico (0 : ℝ) 1) (rng : Verif.Rng V ℝ) (hm : 2 ≤ m)
    (h0 : 0 < δ) (h1 : δ < 1) (halg : cfg.alg = .clt ∨ cfg.alg = .chi2) (hstable : cfg.stable = true) (ht : cfg.transform = ExpData.identityFn)
    (hR : R.IsRidge SR lam) (hlam : 0 < lam) (hC : C.IsLogistic SC) (hμ : 1 ≤ μ) (hκ : 1 / 10 ^ 15 ≤ κ) (hκ' : κ ≤ 1 / 5)
    {s0 : ArmState (AIPW M Q ℝ) (Cell ℝ) ℝ} (hs : s0.split = none) (hp : s0.numPulled = 0) (hreg : AIPW.Regular 1 SR SC μ κ s0.eta) (cost : Fl ℝ) (v0 : V) :
    ∀ᵐ ω ∂P, ∃ B w, backDoor Numbers.gen (Numbers.start [a, b, c] (fun i => U i ω) (fun i => G i ω) v0) = (.ok B, w) ∧
      Recovers (ssArmOps cfg (AIPW.ops R C) realLib (Numbers.rng rng) cost) (fun s => s.ate) (generate B.scm) m (.fin δ) (s0, w) B.stats.tau
        (aipwVariance B.stats.muZ B.alpha) := by
  have hv := valid_of_draws ha hc
  have hm0 : 0 < m := by omega
  have hT := numbersOf_measurable hN m 0
  have hL := numbersOf_law hN hm0 0
  obtain ⟨S, hS, -⟩ := C65_backdoor_sampler (Numbers.gen (V := V)) (1 / 5 + 3 / 5 * a) (10 * (-(3 / 10) + 3 / 5 * b)) (-(3 / 10) + 3 / 5 * c) hv.le.1 hv.le.2
  have hcons := AIPW.C99_consistent (k := 1) (cfg := cfg) rng
    (U := fun k ω => backUnit (1 / 5 + 3 / 5 * a) (10 * (-(3 / 10) + 3 / 5 * b)) (-(3 / 10) + 3 / 5 * c) (numbersOf U G m k ω)) one_pos
    ((numbersOf_iid hN hm0).comp (unit_measurable _ _ _)) (fun _ _ => rfl) (fun i ω => back_binary hT hL hv _) (fun j => back_memLp_z hT hL hv j 8)
    (back_memLp_y hT hL hv 8 (by norm_num)) (back_nondegenerate hT hL hv) (back_leastSquares hT hL hv) (back_logistic hT hL hv) hR hlam hC hμ hκ (by linarith) hm h0 h1 halg hstable
    (fun ω n => ⟨_, by rw [ht]; rfl⟩) hs hp hreg
  obtain ⟨e1, e2⟩ := back_aipw_moments (beta := 10 * (-(3 / 10) + 3 / 5 * b)) hT hL hv (κ := κ) (by linarith [hc.1]) (by linarith [hc.2])
  rw [e1, e2] at hcons
  filter_upwards [recovers_of_consistent (a := a) (b := b) (c := c) hm hv.le.1 hv.le.2 ht hS cost v0 hcons] with ω hω
  refine ⟨_, _, by rw [backDoor_start, hS]; rfl, hω⟩

end

/-- **C101** For all parameters `back_door_scm` can draw, the limit of the variance estimates of the AIPW arm is below 6 and that of the regression arm above 6. -/
theorem C101_comparison {p beta alpha : ℝ} (hp : p ∈ Set.Ico (1 / 5 : ℝ) (4 / 5)) (hb : beta ∈ Set.Ico (-3 : ℝ) 3) (ha : alpha ∈ Set.Ico (-(3 / 10) : ℝ) (3 / 10)) :
    0 < aipwVariance p alpha ∧ aipwVariance p alpha < 6 ∧ 6 < regressionVariance p beta alpha := by
  obtain ⟨p0, p1⟩ := hp
  obtain ⟨b0, b1⟩ := hb
  obtain ⟨a0, a1⟩ := ha
  have r0 : 4 / 25 ≤ (1 / 2 + alpha) * (1 / 2 - alpha) := by nlinarith
  have r1 : (1 / 2 + alpha) * (1 / 2 - alpha) ≤ 1 / 4 := by nlinarith [sq_nonneg alpha]
  have hq : 54 / 5 ≤ (1 / 2 - alpha) * ((10 + beta) ^ 2 + 1) + (1 / 2 + alpha) * (beta ^ 2 + 1) := by
    have h1 : 49 ≤ (10 + beta) ^ 2 := by nlinarith
    have h2 := sq_nonneg beta
    have h3 : 0 ≤ (1 / 2 - alpha - 1 / 5) * ((10 + beta) ^ 2) := mul_nonneg (by linarith) (sq_nonneg _)
    have h4 : 0 ≤ (1 / 2 + alpha) * beta ^ 2 := mul_nonneg (by linarith) h2
    nlinarith
  unfold aipwVariance regressionVariance
  rw [mul_assoc p (1 / 2 + alpha) (1 / 2 - alpha)]
  generalize (1 / 2 + alpha) * (1 / 2 - alpha) = r at r0 r1
  generalize (1 / 2 - alpha) * ((10 + beta) ^ 2 + 1) + (1 / 2 + alpha) * (beta ^ 2 + 1) = q at hq
  have hr : 0 < r := by linarith
  refine ⟨?_, ?_, ?_⟩
  · have : 0 < p / r := by apply div_pos <;> linarith
    linarith
  · have : p / r < 5 := by rw [div_lt_iff₀ hr]; nlinarith
    have : p / r ≤ p * (25 / 4) := by rw [div_le_iff₀ hr]; nlinarith
    nlinarith
  · have hd : 0 < (1 - p) / 2 + p * r := by have : 0 < p * r := by apply mul_pos <;> linarith
                                            linarith
    rw [lt_sub_iff_add_lt, lt_div_iff₀ (by positivity)]
    have y1 : p * r ≤ p / 4 := by nlinarith
    have y0 : 0 ≤ p * r := by nlinarith
    have hN : (1 - p) / 2 * (10 ^ 2 + 1) + p * r * (54 / 5) ≤ (1 - p) / 2 * (10 ^ 2 + 1) + p * r * q := by nlinarith
    refine lt_of_lt_of_le ?_ hN
    generalize p * r = y at y0 y1
    nlinarith [mul_nonneg (sub_nonneg.2 y1) y0, mul_nonneg (sub_nonneg.2 y1) (sub_nonneg.2 p0), mul_nonneg (sub_nonneg.2 y1) (sub_nonneg.2 p1.le), mul_nonneg (sub_nonneg.2 p0) (sub_nonneg.2 p1.le)]

/-! ## Non-vacuity -/

namespace NumbersDemo

/-- the laws of the numbers: uniform on the left, normal on the right -/
noncomputable def law : ℕ ⊕ ℕ → Measure ℝ := Sum.elim (fun _ => volume.restrict (Set.Ico 0 1)) fun _ => gaussianReal 0 1

instance (i : ℕ ⊕ ℕ) : IsProbabilityMeasure (law i) := by
  cases i
  · exact ⟨by simp [law]⟩
  · show IsProbabilityMeasure (gaussianReal 0 1)
    infer_instance

/-- independent numbers with these laws -/
noncomputable def space : Measure (ℕ ⊕ ℕ → ℝ) := Measure.infinitePi law

instance : IsProbabilityMeasure space := by unfold space; infer_instance

theorem randomNumbers : RandomNumbers space (fun i ω => ω (.inl i)) fun i ω => ω (.inr i) where
  measurable_unif _ := measurable_pi_apply _
  measurable_normal _ := measurable_pi_apply _
  unif i := Measure.infinitePi_map_eval law (.inl i)
  normal i := Measure.infinitePi_map_eval law (.inr i)
  indep := by
    have := iIndepFun_infinitePi (P := law) (X := fun _ x => x) fun _ => measurable_id
    convert this using 1
    · funext i
      cases i <;> rfl
    · rfl

end NumbersDemo

open NumbersDemo in
/-- non-vacuity of `C101_regression`: the numbers of the canonical space, batches of 10 samples, a regularisation of 1 -/
example (rng : Verif.Rng V ℝ) (v0 : V) : ∀ᵐ ω ∂space, ∃ R w, backDoor Numbers.gen (Numbers.start [1 / 2, 1 / 4, 2 / 3] (fun i => ω (.inl i)) (fun i => ω (.inr i)) v0) = (.ok R, w) ∧
    Recovers (ssArmOps (LinReg.demoCfg .clt) LinReg.ops realLib (Numbers.rng rng) (.fin 1)) (fun s => s.ate) (generate R.scm) 10 (.fin (1 / 20)) (init (LinReg.new (k := 1) 1), w)
      R.stats.tau (regressionVariance R.stats.muZ R.beta R.alpha) :=
  C101_regression randomNumbers (by norm_num) (by norm_num) rng (by norm_num) (by norm_num) (by norm_num) (Or.inl rfl) rfl rfl rfl rfl one_pos _ v0

open NumbersDemo AIPW in
/-- non-vacuity of `C101_aipw` -/
example (rng : Verif.Rng V ℝ) (v0 : V) : ∀ᵐ ω ∂space, ∃ R w, backDoor Numbers.gen (Numbers.start [1 / 2, 1 / 4, 2 / 3] (fun i => ω (.inl i)) (fun i => ω (.inr i)) v0) = (.ok R, w) ∧
    Recovers (ssArmOps (LinReg.demoCfg .chi2) (AIPW.ops (idealRidge 1) idealLogistic) realLib (Numbers.rng rng) (.fin 1)) (fun s => s.ate) (generate R.scm) 10 (.fin (1 / 20))
      (init fourNew, w) R.stats.tau (aipwVariance R.stats.muZ R.alpha) :=
  C101_aipw (SR := fun _ => True) (SC := fun _ => True) randomNumbers (by norm_num) (by norm_num) rng (by norm_num) (by norm_num) (by norm_num) (Or.inr rfl) rfl rfl
    (idealRidge_isRidge (alpha := 1) (by norm_num)) (by norm_num) idealLogistic_isLogistic (by norm_num) (by norm_num) (by norm_num) rfl rfl four_regular _ v0

/-- non-vacuity of the theorems on the parameters: a generator that always returns 1/2; the parameters are then the middles of their ranges -/
example : ∃ R : BackDoorReturn Unit, backDoor ⟨fun w => (1 / 2, w), fun w => (0, w)⟩ () = (.ok R, ()) ∧ R.stats.muZ = 1 / 2 ∧ R.beta = 0 ∧ R.alpha = 0 := by
  refine ⟨⟨_, _, _, _⟩, rfl, ?_, ?_, ?_⟩
  · simp only [backDoorStats]; norm_num
  · norm_num
  · norm_num

/-- non-vacuity of `C101_comparison` -/
example : aipwVariance (1 / 2) 0 = 4 ∧ regressionVariance (1 / 2) 0 0 = 1124 / 9 := by
  unfold aipwVariance regressionVariance
  constructor <;> norm_num

end Example
end Verif
