import Verif.Lemmas.ArmsTest3
import Verif.Lemmas.FrontVariance2
import Mathlib.MeasureTheory.Measure.Lebesgue.Basic
import Verif.Props.ArmsTest

/-!
# Property C109: the project's test of the front-door arm
-/

set_option linter.unusedSectionVars false
set_option linter.unusedSimpArgs false

namespace Verif
open MeasureTheory ProbabilityTheory Filter Topology Arm

theorem pvar_eq_sub (xs : List ℝ) (h : xs ≠ []) : pvar xs = pmean (xs.map fun x => x ^ 2) - pmean xs ^ 2 := by
  unfold pvar
  have e : (fun x => (x - pmean xs) ^ 2) = fun x => x ^ 2 + ((-2 * pmean xs) * x + pmean xs ^ 2) := by
    funext x; ring
  rw [e, pmean_add', pmean_add', pmean_mul', pmean_const' _ h]
  rw [show (xs.map fun x => x) = xs from List.map_id' xs]
  ring

namespace ArmsTest
open Example Section5
variable {Ω V H : Type} [MeasurableSpace Ω] {P : Measure Ω} {U G : ℕ → Ω → ℝ} {fit : LinEst H ℝ → List (List ℝ) → List ℝ → Except PyErr Unit × LinEst H ℝ} {clone : LinEst H ℝ → LinEst H ℝ}
  {SR : LinEst H ℝ → Prop} {lam : ℝ} {ridge0 : LinEst H ℝ} {p beta gamma alpha1 alpha2 : ℝ}

theorem frontArm_fs : FsConfig frontArm (1 / 20) 1 1 2 1000 1 := by
  refine ⟨rfl, rfl, rfl, rfl, rfl, rfl, ?_, ?_, ?_, ?_, ?_, ?_, ?_, ?_⟩
  any_goals norm_num
  exact fun n hn => backArm_fs.inner n (by exact_mod_cast hn)

/-- the run of the arm on units of the example: it never stops, the variance estimates converge, and the parameter is fitted and has seen all covariates -/
theorem front_run (hN : RandomNumbers P U G) (hp : 0 < p ∧ p < 1) (la : 1 / 4 < logistic alpha1 ∧ logistic alpha1 < 3 / 4) (lb : 1 / 4 < logistic beta ∧ logistic beta < 3 / 4)
    (hT : (LinEst.predictor (fun x => x) fit clone : Predictor (LinEst H ℝ) ℝ).Total) (hR : (LinEst.predictor (fun x => x) fit clone : Predictor (LinEst H ℝ) ℝ).IsRidgeIntercept SR lam)
    (hl : 0 ≤ lam) (h0 : SR ridge0) {S : SCM String ℝ (Numbers V)} (hS : frontDoorScm Numbers.gen p beta gamma alpha1 alpha2 = .ok S) (rng : Verif.Rng V ℝ) (v0 : V) (i0 j0 : ℕ)
    {u g : Ω → ℕ → ℝ} (hu : ∀ ω i, u ω (i0 + i) = U i ω) (hg : ∀ ω i, g ω (j0 + i) = G i ω) :
    ∀ᵐ ω ∂P, ∃ s : ℕ → ArmState (FrontDoor (LinEst H ℝ) ℝ) (Cell ℝ) ℝ, s 0 = Arm.init (FrontDoor.new ridge0 1 5 (1 / 20) 5) ∧
      (∀ n, TestUtils.Round (ssArmOps frontArm (FrontDoor.ops (LinEst.predictor (fun x => x) fit clone) ridge0) realLib (Numbers.rng rng) (.fin 1)) (generate S) 1500 (.fin (1 / 20))
        (s n, roundWorld rng 1500 (u ω) (g ω) i0 j0 v0 n) (s (n + 1), roundWorld rng 1500 (u ω) (g ω) i0 j0 v0 (n + 1))) ∧
      (∃ q : ℕ → ℝ, (∀ᶠ n in atTop, (s n).varEst = some (.fin (q n))) ∧
        Tendsto q atTop (𝓝 (frontVariance p beta gamma alpha1 alpha2 (Example.trueResponse p gamma alpha1 alpha2)))) ∧
      ∀ᶠ n in atTop, FrontDoor.Regular {0, 1} SR 5 (1 / 20) 5 (s n).eta ∧ (s n).eta.hasBeenFit = true ∧ ∀ a ∈ ({0, 1} : Finset ℤ), [Cell.int a] ∈ (s n).eta.cpd.zValues := by
  have := hN.indep.isProbabilityMeasure
  have hm0 : 0 < 1500 := by norm_num
  have hM := fourNumbers_measurable hN 1500 0
  have hL := fourNumbers_law hN hm0 0
  have hiid := (fourNumbers_iid hN hm0).comp (measurable_mediator (p := p) (beta := beta) (gamma := gamma) (alpha1 := alpha1) (alpha2 := alpha2))
  have hfin : ∀ i ω, (mediatorUnit p beta gamma alpha1 alpha2 (fourNumbers U G 1500 i ω)).FiniteZ {0, 1} := fun i ω => mediatorUnit_finite _
  have hq : 1 / ((({0, 1} : Finset ℤ)).card : ℝ) / 5 ≤ 1 / 4 := by
    rw [Finset.card_pair (by norm_num)]
    norm_num
  have hcond : ∀ x : ℤ, x = 0 ∨ x = 1 → ∀ z ∈ ({0, 1} : Finset ℤ),
      1 / ((({0, 1} : Finset ℤ)).card : ℝ) / 5 < condProb P (fun ω => (mediatorUnit p beta gamma alpha1 alpha2 (fourNumbers U G 1500 0 ω)).point 1) x z ∧
      condProb P (fun ω => (mediatorUnit p beta gamma alpha1 alpha2 (fourNumbers U G 1500 0 ω)).point 1) x z < 1 - 1 / ((({0, 1} : Finset ℤ)).card : ℝ) / 5 := by
    intro x hx y hy
    have hx' : (x : ℝ) = 0 ∨ (x : ℝ) = 1 := by rcases hx with rfl | rfl <;> simp
    have hy' : (y : ℝ) = 0 ∨ (y : ℝ) = 1 := by
      rcases Finset.mem_insert.1 hy with rfl | hy
      · simp
      · rw [Finset.mem_singleton.1 hy]; simp
    rw [mediator_cond hM hL hp la hx' hy']
    split
    · split
      · exact ⟨by linarith, by linarith⟩
      · exact ⟨by linarith, by linarith⟩
    · exact ⟨by linarith, by linarith⟩
  have hshow : Shows frontArm.transform 2 1 fun u => { u with z := ExpData.gather [1] u.z } := shows_removeCoord
  have hstream : ∀ ω, ∃ s ci, s 0 = Arm.init (FrontDoor.new ridge0 1 5 (1 / 20) 5) ∧
      Streams 1 frontArm (FrontDoor.ops (LinEst.predictor (fun x => x) fit clone) ridge0) rng (fun i => mediatorUnit p beta gamma alpha1 alpha2 (fourNumbers U G 1500 i ω)) (fun _ => 1500)
        (.fin (1 / 20)) s (fun n => Bandit.seedAt rng 1500 v0 n) ci := by
    intro ω
    obtain ⟨s, ci, e0, hs, -⟩ := stream_fs (W := V) (k := 1) (x0 := .int 0) (x1 := .int 1) (FrontDoor.safe (LinEst.predictor (fun x => x) fit clone) ridge0 hT (by simp [Cell.val]) (by simp [Cell.val]))
      (FrontDoor.repeatable _ _) frontArm_fs rfl rng (size := fun _ => 1500) (fun _ => by norm_num) (fun n => Bandit.seedAt rng 1500 v0 n)
      (fun i => mediatorUnit p beta gamma alpha1 alpha2 (fourNumbers U G 1500 i ω))
      (fun n => hshow.blocks (u := fun i => frontUnitOf p beta gamma alpha1 alpha2 (fourNumbers U G 1500 i ω)) (fun _ => rfl) 1500 n)
      (fun i => ⟨rfl, trunc_bit_cases _ _⟩) (Arm.init (FrontDoor.new ridge0 1 5 (1 / 20) 5)) rfl rfl
      (FrontDoor.safeState_new ridge0 le_rfl 5 (by norm_num) (1 / 20) 5 (by norm_num) (by norm_num) (by norm_num))
    exact ⟨s, ci, e0, hs⟩
  choose s ci hs0 hs using hstream
  have hreg : ∀ᵐ ω ∂P, FrontDoor.Regular {0, 1} SR 5 (1 / 20) 5 (s ω 0).eta := Eventually.of_forall fun ω => by
    rw [hs0]
    exact FrontDoor.regular_new ridge0 h0 (by norm_num)
  have hconv := FrontDoor.C102_estimates_converge (s := fun n ω => s ω n) (ci := fun n ω => ci ω n) hiid hfin (mediator_memLp_y hM hL hp la 2 (by norm_num))
    (mediator_nondegenerate hM hL hp la lb) (mediator_leastSquares hM hL hp la) hR hl (by norm_num) (by norm_num) (by norm_num) (by norm_num) hcond (fun _ => by norm_num)
    (Eventually.of_forall hs) hreg
  have hseen := FrontDoor.eventually_seen (s := fun n ω => s ω n) (ci := fun n ω => ci ω n) hiid hfin hR (by norm_num) (by norm_num) (by norm_num) hcond (fun _ => by norm_num)
    (Eventually.of_forall hs) hreg
  filter_upwards [hconv, hseen] with ω c1 c2
  obtain ⟨_, q, h1, -, h3⟩ := c1
  refine ⟨s ω, hs0 ω, fun n => ?_, ⟨q, h1.mono fun n h => h.2, ?_⟩, c2⟩
  · refine front_round (view := fun u => { u with z := ExpData.gather [1] u.z }) (ci := ci ω) hm0 ⟨hp.1.le, hp.2.le⟩ hshow hS (.fin 1) v0 (u ω) (g ω) i0 j0 ?_ n
    have e : (fun k => (fun u : Obs ℝ => { u with z := ExpData.gather [1] u.z }) (frontUnitOf p beta gamma alpha1 alpha2
        (fourNumbers (fun i (_ : Unit) => u ω (i0 + i)) (fun i _ => g ω (j0 + i)) 1500 k ()))) =
        fun i => mediatorUnit p beta gamma alpha1 alpha2 (fourNumbers U G 1500 i ω) := by
      funext k
      simp only [hu, hg]
      rfl
    rw [e]
    exact hs ω
  · have e : (fun ω => frontDoorLimit P (fun ω => (mediatorUnit p beta gamma alpha1 alpha2 (fourNumbers U G 1500 0 ω)).point 1) (1 / 20) (mediatorCoef p gamma alpha1 alpha2) {0, 1}
        ((mediatorUnit p beta gamma alpha1 alpha2 (fourNumbers U G 1500 0 ω)).point 1)) = fun ω => scoreOf p beta gamma alpha1 alpha2 (Example.trueResponse p gamma alpha1 alpha2) (fourNumbers U G 1500 0 ω) :=
      funext fun ω => limit_scoreOf hM hL hp la _
    rw [e, scoreOf_variance hM hL ⟨hp.1.le, hp.2.le⟩] at h3
    exact h3

theorem roundsNeeded_le (N : ℕ) : TestUtils.roundsNeeded N 1500 ≤ N := by
  by_contra h
  have := (TestUtils.lt_roundsNeeded N 1500 (by norm_num) N).1 (by omega)
  push_cast at this
  omega

theorem tendsto_roundsNeeded : Tendsto (fun N : ℕ => TestUtils.roundsNeeded N 1500) atTop atTop := by
  refine tendsto_atTop.2 fun k => eventually_atTop.2 ⟨k * 1500 + 1, fun N hN => ?_⟩
  refine ((TestUtils.lt_roundsNeeded N 1500 (by norm_num) k).2 ?_).le
  have : ((k * 1500 + 1 : ℕ) : ℤ) ≤ N := by exact_mod_cast hN
  push_cast at this ⊢
  omega

/-- the scores of the samples that are generated first, with the response that the test sets -/
noncomputable def sampleScores (p beta gamma alpha1 alpha2 : ℝ) (U G : ℕ → Ω → ℝ) (n : ℕ) (ω : Ω) : List ℝ :=
  (List.range n).map fun i => scoreOf p beta gamma alpha1 alpha2 (testResponse p gamma alpha2) (fourNumbers U G n i ω)

/-- with a fitted parameter and a variance estimate, the assertion compares the estimate with the variance of the scores -/
theorem varianceCheck_eq (hp : 0 < p ∧ p < 1) (la : 1 / 4 < logistic alpha1 ∧ logistic alpha1 < 3 / 4) {W : Type} {S : SCM String ℝ W}
    {st : ArmState (FrontDoor (LinEst H ℝ) ℝ) (Cell ℝ) ℝ} (he : FrontDoor.Regular {0, 1} SR 5 (1 / 20) 5 st.eta) (hfit : st.eta.hasBeenFit = true)
    (hz : ∀ a ∈ ({0, 1} : Finset ℤ), [Cell.int a] ∈ st.eta.cpd.zValues) {x : ℝ} (hx : st.varEst = some (.fin x)) {n : ℕ} (hn : 0 < n) (ω : Ω) :
    varianceCheck (LinEst.predictor (fun x => x) fit clone) (ParametersTest.frontReturn S p beta gamma alpha1 alpha2)
      (Obs.dataset 2 ((List.range n).map fun i => frontUnitOf p beta gamma alpha1 alpha2 (fourNumbers U G n i ω))) st =
      .ok (decide (|x - pvar (sampleScores p beta gamma alpha1 alpha2 U G n ω)| ≤ 1 / 20 * |pvar (sampleScores p beta gamma alpha1 alpha2 U G n ω)|)) := by
  have hne : (List.range n).map (fun i => fourNumbers U G n i ω) ≠ [] := by simp; omega
  have hsc := score_set (fit := fit) (clone := clone) (S := S) (beta := beta) (gamma := gamma) (alpha2 := alpha2) hp la he hfit hz hne
  have hd : ExpData.removeCoord 0 (Obs.dataset 2 ((List.range n).map fun i => frontUnitOf p beta gamma alpha1 alpha2 (fourNumbers U G n i ω))) =
      .ok (Obs.dataset 1 (((List.range n).map fun i => fourNumbers U G n i ω).map (mediatorUnit p beta gamma alpha1 alpha2))) := by
    rw [shows_removeCoord.dataset _ (by
      intro u hu
      obtain ⟨i, -, rfl⟩ := List.mem_map.1 hu
      rfl), List.map_map, List.map_map]
    rfl
  unfold varianceCheck
  rw [hd]
  simp only [Bind.bind, Except.bind]
  rw [hsc]
  simp only [hx]
  rw [var_fin _ (by simpa using hne), List.map_map]
  rfl

/-- what the first assertion compares, almost surely once the arm has been run long enough -/
theorem front_result (hN : RandomNumbers P U G) {a b c d e : ℝ} (hp : 0 < 1 / 5 + 3 / 5 * a ∧ 1 / 5 + 3 / 5 * a < 1)
    (la : 1 / 4 < logistic (-(3 / 10) + 3 / 5 * d) ∧ logistic (-(3 / 10) + 3 / 5 * d) < 3 / 4) (lb : 1 / 4 < logistic (-1 + 2 * b) ∧ logistic (-1 + 2 * b) < 3 / 4)
    (hT : (LinEst.predictor (fun x => x) fit clone : Predictor (LinEst H ℝ) ℝ).Total) (hR : (LinEst.predictor (fun x => x) fit clone : Predictor (LinEst H ℝ) ℝ).IsRidgeIntercept SR lam)
    (hl : 0 ≤ lam) (h0 : SR ridge0) (rng : Verif.Rng V ℝ) (v0 : V) {n : ℕ} (hn : 0 < n) {η : ℝ} (hη : 0 < η) :
    ∀ᵐ ω ∂P, ∀ᶠ N : ℕ in atTop, ∀ fuel ≥ N, ∃ x, |x - frontVariance (1 / 5 + 3 / 5 * a) (-1 + 2 * b) (5 + 5 * c) (-(3 / 10) + 3 / 5 * d) (-(3 / 10) + 3 / 5 * e)
        (Example.trueResponse (1 / 5 + 3 / 5 * a) (5 + 5 * c) (-(3 / 10) + 3 / 5 * d) (-(3 / 10) + 3 / 5 * e))| < η ∧
      (frontDoorVariance Numbers.gen (Numbers.rng rng) (LinEst.predictor (fun x => x) fit clone) ridge0 n N fuel
        (Numbers.start [a, b, c, d, e] (fun i => U i ω) (fun i => G i ω) v0)).1 =
        .ok (some (decide (|x - pvar (sampleScores (1 / 5 + 3 / 5 * a) (-1 + 2 * b) (5 + 5 * c) (-(3 / 10) + 3 / 5 * d) (-(3 / 10) + 3 / 5 * e) U G n ω)| ≤
          1 / 20 * |pvar (sampleScores (1 / 5 + 3 / 5 * a) (-1 + 2 * b) (5 + 5 * c) (-(3 / 10) + 3 / 5 * d) (-(3 / 10) + 3 / 5 * e) U G n ω)|))) := by
  obtain ⟨S, hS, -⟩ := C65_frontdoor_sampler (Numbers.gen (V := V)) (1 / 5 + 3 / 5 * a) (-1 + 2 * b) (5 + 5 * c) (-(3 / 10) + 3 / 5 * d) (-(3 / 10) + 3 / 5 * e) ⟨hp.1.le, hp.2.le⟩
  have hfb : ∀ ω j, followedBy [a, b, c, d, e] (fun i => U i ω) (5 + j) = U j ω := by
    intro ω j
    unfold followedBy
    rw [List.getD_eq_default _ _ (by simp)]
    simp
  filter_upwards [front_run (hN.shift (n + n + n) n) hp la lb hT hR hl h0 hS rng v0 (5 + n + n + n) n (u := fun ω => followedBy [a, b, c, d, e] fun i => U i ω) (g := fun ω i => G i ω)
    (fun ω i => by rw [show 5 + n + n + n + i = 5 + (n + n + n + i) by omega, hfb]) (fun ω i => rfl)] with ω hω
  obtain ⟨s, hs0, hround, ⟨q, hq, hlim⟩, hseen⟩ := hω
  have hev := tendsto_roundsNeeded.eventually (hq.and (hseen.and (hlim.eventually (Metric.ball_mem_nhds _ hη))))
  filter_upwards [hev] with N hNN fuel hfuel
  obtain ⟨k1, ⟨k2, k3, k4⟩, k5⟩ := hNN
  refine ⟨q (TestUtils.roundsNeeded N 1500), by rwa [Real.dist_eq] at k5, ?_⟩
  obtain ⟨dict, hrun⟩ := run_of_rounds (ate := fun s => s.ate) hround N (fuel := fuel) ((roundsNeeded_le N).trans hfuel)
  have hgen : generate S n { Numbers.start [a, b, c, d, e] (fun i => U i ω) (fun i => G i ω) v0 with i := 5 } =
      (.ok (Obs.dataset 2 ((List.range n).map fun i => frontUnitOf (1 / 5 + 3 / 5 * a) (-1 + 2 * b) (5 + 5 * c) (-(3 / 10) + 3 / 5 * d) (-(3 / 10) + 3 / 5 * e) (fourNumbers U G n i ω))),
        roundWorld rng 1500 (followedBy [a, b, c, d, e] fun i => U i ω) (fun i => G i ω) (5 + n + n + n) n v0 0) := by
    rw [generate_front ⟨hp.1.le, hp.2.le⟩ hS]
    refine Prod.ext ?_ ?_
    · refine congrArg (fun l => Except.ok (Obs.dataset 2 l)) (List.map_congr_left fun i hi => ?_)
      have := ParametersTest.numbers_at (U := U) (G := G) n i (List.mem_range.1 hi) ω [a, b, c, d, e]
      rw [← this]
      simp only [Numbers.start, List.length_cons, List.length_nil, Nat.zero_add]
    · simp [roundWorld, Numbers.start, Bandit.seedAt]
  have hrf : runFrontDoor Numbers.gen (Numbers.rng rng) (LinEst.predictor (fun x => x) fit clone) ridge0 n N fuel
        (Numbers.start [a, b, c, d, e] (fun i => U i ω) (fun i => G i ω) v0) =
      (.ok (some (ParametersTest.frontReturn S (1 / 5 + 3 / 5 * a) (-1 + 2 * b) (5 + 5 * c) (-(3 / 10) + 3 / 5 * d) (-(3 / 10) + 3 / 5 * e),
        Obs.dataset 2 ((List.range n).map fun i => frontUnitOf (1 / 5 + 3 / 5 * a) (-1 + 2 * b) (5 + 5 * c) (-(3 / 10) + 3 / 5 * d) (-(3 / 10) + 3 / 5 * e) (fourNumbers U G n i ω)),
        s (TestUtils.roundsNeeded N 1500), dict)),
        roundWorld rng 1500 (followedBy [a, b, c, d, e] fun i => U i ω) (fun i => G i ω) (5 + n + n + n) n v0 (TestUtils.roundsNeeded N 1500)) := by
    unfold runFrontDoor
    rw [frontDoor_start, hS]
    simp only [Except.map]
    rw [hgen]
    simp only [runArm]
    rw [hs0] at hrun
    rw [hrun]
    rfl
  unfold frontDoorVariance
  rw [hrf]
  simp only
  rw [varianceCheck_eq hp la k2 k3 k4 k1 hn]
  rfl

/-- the variance of the scores of the samples -/
theorem sample_variance (hN : RandomNumbers P U G) (hp : 0 ≤ p ∧ p ≤ 1) {η : ℝ} (hη : 0 < η) :
    Tendsto (fun n => P {ω | ¬ |pvar (sampleScores p beta gamma alpha1 alpha2 U G n ω) - frontVariance p beta gamma alpha1 alpha2 (testResponse p gamma alpha2)| < η}) atTop (𝓝 0) := by
  have := hN.indep.isProbabilityMeasure
  have hM := fourNumbers_measurable hN 1 0
  have hL := fourNumbers_law hN one_pos 0
  have hms := measurable_scoreOf (p := p) (beta := beta) (gamma := gamma) (alpha1 := alpha1) (alpha2 := alpha2) (mu := testResponse p gamma alpha2)
  refine likely (J := Fin 2) (X := fun n => fourNumbers U G n) (Y := fourNumbers U G 1 0)
    (g := ![scoreOf p beta gamma alpha1 alpha2 (testResponse p gamma alpha2), fun q => scoreOf p beta gamma alpha1 alpha2 (testResponse p gamma alpha2) q ^ 2])
    (fun n hn => fourNumbers_iid hN hn)
    (fun n hn => ⟨(fourNumbers_measurable hN n 0).aemeasurable, hM.aemeasurable, (fourNumbers_law hN hn 0).trans hL.symm⟩) (fun j => ?_) (fun j => ?_) fun N x hNN hx => ?_
  · fin_cases j
    · exact hms
    · exact hms.pow_const 2
  · fin_cases j
    · exact scoreOf_memLp hM hL
    · exact scoreOf_sq_memLp hM hL
  · have t0 := hx 0
    have t1 := hx 1
    simp only [Matrix.cons_val_zero, Matrix.cons_val_one] at t0 t1
    have hlim := t1.sub (t0.pow 2)
    have e : (∫ ω, scoreOf p beta gamma alpha1 alpha2 (testResponse p gamma alpha2) (fourNumbers U G 1 0 ω) ^ 2 ∂P) -
        (∫ ω, scoreOf p beta gamma alpha1 alpha2 (testResponse p gamma alpha2) (fourNumbers U G 1 0 ω) ∂P) ^ 2 =
        frontVariance p beta gamma alpha1 alpha2 (testResponse p gamma alpha2) := by
      rw [← scoreOf_variance hM hL hp, variance_eq_sub (scoreOf_memLp hM hL)]
      rfl
    rw [e] at hlim
    obtain ⟨i, hi, hi'⟩ := ((hlim.eventually (Metric.ball_mem_nhds _ hη)).and (hNN.eventually_ge_atTop 1)).exists
    refine ⟨i, ?_⟩
    rw [Real.dist_eq] at hi
    have hne : sampleScores p beta gamma alpha1 alpha2 U G (N i) (x i) ≠ [] := by
      unfold sampleScores
      simp
      omega
    rw [pvar_eq_sub _ hne]
    unfold sampleScores
    rw [List.map_map]
    exact hi

variable {a b c d e : ℝ}

/-- what holds for all numbers near the two limits holds for the assertion, with a probability that tends to 1 -/
theorem assertion_likely (hN : RandomNumbers P U G) (ha : a ∈ Set.Ico (0 : ℝ) 1) (hb : b ∈ Set.Ico (0 : ℝ) 1) (hd : d ∈ Set.Ico (0 : ℝ) 1)
    (hT : (LinEst.predictor (fun x => x) fit clone : Predictor (LinEst H ℝ) ℝ).Total) (hR : (LinEst.predictor (fun x => x) fit clone : Predictor (LinEst H ℝ) ℝ).IsRidgeIntercept SR lam)
    (hl : 0 ≤ lam) (h0 : SR ridge0) (rng : Verif.Rng V ℝ) (v0 : V) {v : Bool} {η : ℝ} (hη : 0 < η)
    (hv : ∀ x y, |x - frontVariance (1 / 5 + 3 / 5 * a) (-1 + 2 * b) (5 + 5 * c) (-(3 / 10) + 3 / 5 * d) (-(3 / 10) + 3 / 5 * e)
        (Example.trueResponse (1 / 5 + 3 / 5 * a) (5 + 5 * c) (-(3 / 10) + 3 / 5 * d) (-(3 / 10) + 3 / 5 * e))| < η →
      |y - frontVariance (1 / 5 + 3 / 5 * a) (-1 + 2 * b) (5 + 5 * c) (-(3 / 10) + 3 / 5 * d) (-(3 / 10) + 3 / 5 * e)
        (testResponse (1 / 5 + 3 / 5 * a) (5 + 5 * c) (-(3 / 10) + 3 / 5 * e))| < η → decide (|x - y| ≤ 1 / 20 * |y|) = v) :
    Tendsto (fun n => P {ω | ¬ ∀ᶠ N : ℕ in atTop, ∀ fuel ≥ N, (frontDoorVariance Numbers.gen (Numbers.rng rng) (LinEst.predictor (fun x => x) fit clone) ridge0 n N fuel
      (Numbers.start [a, b, c, d, e] (fun i => U i ω) (fun i => G i ω) v0)).1 = .ok (some v)}) atTop (𝓝 0) := by
  obtain ⟨a0, a1⟩ := ha
  obtain ⟨b0, b1⟩ := hb
  obtain ⟨d0, d1⟩ := hd
  have hp : 0 < 1 / 5 + 3 / 5 * a ∧ 1 / 5 + 3 / 5 * a < 1 := ⟨by linarith, by linarith⟩
  have la := logistic_bounds (t := -(3 / 10) + 3 / 5 * d) (by linarith) (by linarith)
  have lb := logistic_bounds (t := -1 + 2 * b) (by linarith) (by linarith)
  have hsv := sample_variance (beta := -1 + 2 * b) (gamma := 5 + 5 * c) (alpha1 := -(3 / 10) + 3 / 5 * d) (alpha2 := -(3 / 10) + 3 / 5 * e) hN ⟨hp.1.le, hp.2.le⟩ hη
  refine tendsto_of_tendsto_of_tendsto_of_le_of_le' tendsto_const_nhds hsv (Eventually.of_forall fun n => zero_le) ?_
  filter_upwards [eventually_gt_atTop 0] with n hn
  refine measure_mono_ae ?_
  filter_upwards [front_result (c := c) (e := e) hN hp la lb hT hR hl h0 rng v0 hn hη] with ω hω hbad hy
  refine hbad ?_
  filter_upwards [hω] with N hNN fuel hfuel
  obtain ⟨x, hx, hr⟩ := hNN fuel hfuel
  rw [hr, hv x _ hx hy]

theorem frontVariance_nonneg (hp : 0 ≤ p ∧ p ≤ 1) (mu : ℝ → ℝ → ℝ) : 0 ≤ frontVariance p beta gamma alpha1 alpha2 mu := by
  have hN := NumbersDemo.randomNumbers
  rw [← scoreOf_variance (fourNumbers_measurable hN 1 0) (fourNumbers_law hN one_pos 0) hp]
  exact variance_nonneg _ _

/-- **C109** The first assertion of `test_frontdoor_arm` compares the variance estimate of the arm with the variance of the scores that use the "true" nuisance
parameters.  The response that the test sets is not the true one; if the variances of the two scores differ by more than 5 %, then for large numbers of samples the
assertion fails with a probability that tends to 1, however long the arm is run. -/
theorem C109_front_door_variance_violated (hN : RandomNumbers P U G) (ha : a ∈ Set.Ico (0 : ℝ) 1) (hb : b ∈ Set.Ico (0 : ℝ) 1) (hd : d ∈ Set.Ico (0 : ℝ) 1)
    (hT : (LinEst.predictor (fun x => x) fit clone : Predictor (LinEst H ℝ) ℝ).Total) (hR : (LinEst.predictor (fun x => x) fit clone : Predictor (LinEst H ℝ) ℝ).IsRidgeIntercept SR lam)
    (hl : 0 ≤ lam) (h0 : SR ridge0) (rng : Verif.Rng V ℝ) (v0 : V) (hp : p = 1 / 5 + 3 / 5 * a) (hbeta : beta = -1 + 2 * b) (hgamma : gamma = 5 + 5 * c)
    (h1 : alpha1 = -(3 / 10) + 3 / 5 * d) (h2 : alpha2 = -(3 / 10) + 3 / 5 * e)
    (hfar : 1 / 20 * frontVariance p beta gamma alpha1 alpha2 (testResponse p gamma alpha2) <
      |frontVariance p beta gamma alpha1 alpha2 (Example.trueResponse p gamma alpha1 alpha2) - frontVariance p beta gamma alpha1 alpha2 (testResponse p gamma alpha2)|) :
    Tendsto (fun n => P {ω | ¬ ∀ᶠ N : ℕ in atTop, ∀ fuel ≥ N, (frontDoorVariance Numbers.gen (Numbers.rng rng) (LinEst.predictor (fun x => x) fit clone) ridge0 n N fuel
      (Numbers.start [a, b, c, d, e] (fun i => U i ω) (fun i => G i ω) v0)).1 = .ok (some false)}) atTop (𝓝 0) := by
  subst hp hbeta hgamma h1 h2
  have hv0 : 0 ≤ frontVariance (1 / 5 + 3 / 5 * a) (-1 + 2 * b) (5 + 5 * c) (-(3 / 10) + 3 / 5 * d) (-(3 / 10) + 3 / 5 * e)
        (testResponse (1 / 5 + 3 / 5 * a) (5 + 5 * c) (-(3 / 10) + 3 / 5 * e)) := frontVariance_nonneg ⟨by linarith [ha.1], by linarith [ha.2]⟩ _
  refine assertion_likely hN ha hb hd hT hR hl h0 rng v0 (η := (|frontVariance (1 / 5 + 3 / 5 * a) (-1 + 2 * b) (5 + 5 * c) (-(3 / 10) + 3 / 5 * d) (-(3 / 10) + 3 / 5 * e)
        (Example.trueResponse (1 / 5 + 3 / 5 * a) (5 + 5 * c) (-(3 / 10) + 3 / 5 * d) (-(3 / 10) + 3 / 5 * e)) -
      frontVariance (1 / 5 + 3 / 5 * a) (-1 + 2 * b) (5 + 5 * c) (-(3 / 10) + 3 / 5 * d) (-(3 / 10) + 3 / 5 * e) (testResponse (1 / 5 + 3 / 5 * a) (5 + 5 * c) (-(3 / 10) + 3 / 5 * e))| -
      1 / 20 * frontVariance (1 / 5 + 3 / 5 * a) (-1 + 2 * b) (5 + 5 * c) (-(3 / 10) + 3 / 5 * d) (-(3 / 10) + 3 / 5 * e) (testResponse (1 / 5 + 3 / 5 * a) (5 + 5 * c) (-(3 / 10) + 3 / 5 * e))) / 4)
    (by linarith) ?_
  generalize frontVariance _ _ _ _ _ (Example.trueResponse _ _ _ _) = X at *
  generalize frontVariance _ _ _ _ _ (testResponse _ _ _) = Y at *
  intro x y hx hy
  rw [decide_eq_false_iff_not, not_le]
  have t1 : |X - Y| ≤ |x - X| + |x - y| + |y - Y| := by
    have := abs_add_three (X - x) (x - y) (y - Y)
    rw [abs_sub_comm X x, show X - x + (x - y) + (y - Y) = X - Y by ring] at this
    exact this
  have t2 : |y| ≤ |y - Y| + Y := by
    have := abs_add_le (y - Y) Y
    rw [abs_of_nonneg hv0] at this
    simpa using this
  linarith

/-- **C109** If the variances of the two scores differ by less than 5 %, the first assertion of `test_frontdoor_arm` holds with a probability that tends to 1, for large
numbers of samples and long runs. -/
theorem C109_front_door_variance (hN : RandomNumbers P U G) (ha : a ∈ Set.Ico (0 : ℝ) 1) (hb : b ∈ Set.Ico (0 : ℝ) 1) (hd : d ∈ Set.Ico (0 : ℝ) 1)
    (hT : (LinEst.predictor (fun x => x) fit clone : Predictor (LinEst H ℝ) ℝ).Total) (hR : (LinEst.predictor (fun x => x) fit clone : Predictor (LinEst H ℝ) ℝ).IsRidgeIntercept SR lam)
    (hl : 0 ≤ lam) (h0 : SR ridge0) (rng : Verif.Rng V ℝ) (v0 : V) (hp : p = 1 / 5 + 3 / 5 * a) (hbeta : beta = -1 + 2 * b) (hgamma : gamma = 5 + 5 * c)
    (h1 : alpha1 = -(3 / 10) + 3 / 5 * d) (h2 : alpha2 = -(3 / 10) + 3 / 5 * e)
    (hnear : |frontVariance p beta gamma alpha1 alpha2 (Example.trueResponse p gamma alpha1 alpha2) - frontVariance p beta gamma alpha1 alpha2 (testResponse p gamma alpha2)| <
      1 / 20 * frontVariance p beta gamma alpha1 alpha2 (testResponse p gamma alpha2)) :
    Tendsto (fun n => P {ω | ¬ ∀ᶠ N : ℕ in atTop, ∀ fuel ≥ N, (frontDoorVariance Numbers.gen (Numbers.rng rng) (LinEst.predictor (fun x => x) fit clone) ridge0 n N fuel
      (Numbers.start [a, b, c, d, e] (fun i => U i ω) (fun i => G i ω) v0)).1 = .ok (some true)}) atTop (𝓝 0) := by
  subst hp hbeta hgamma h1 h2
  refine assertion_likely hN ha hb hd hT hR hl h0 rng v0 (η := (1 / 20 * frontVariance (1 / 5 + 3 / 5 * a) (-1 + 2 * b) (5 + 5 * c) (-(3 / 10) + 3 / 5 * d) (-(3 / 10) + 3 / 5 * e)
      (testResponse (1 / 5 + 3 / 5 * a) (5 + 5 * c) (-(3 / 10) + 3 / 5 * e)) - |frontVariance (1 / 5 + 3 / 5 * a) (-1 + 2 * b) (5 + 5 * c) (-(3 / 10) + 3 / 5 * d) (-(3 / 10) + 3 / 5 * e)
        (Example.trueResponse (1 / 5 + 3 / 5 * a) (5 + 5 * c) (-(3 / 10) + 3 / 5 * d) (-(3 / 10) + 3 / 5 * e)) -
      frontVariance (1 / 5 + 3 / 5 * a) (-1 + 2 * b) (5 + 5 * c) (-(3 / 10) + 3 / 5 * d) (-(3 / 10) + 3 / 5 * e) (testResponse (1 / 5 + 3 / 5 * a) (5 + 5 * c) (-(3 / 10) + 3 / 5 * e))|) / 4)
    (by linarith) ?_
  generalize frontVariance _ _ _ _ _ (Example.trueResponse _ _ _ _) = X at *
  generalize frontVariance _ _ _ _ _ (testResponse _ _ _) = Y at *
  intro x y hx hy
  rw [decide_eq_true_iff]
  have t1 : |x - y| ≤ |x - X| + |X - Y| + |y - Y| := by
    have := abs_add_three (x - X) (X - Y) (Y - y)
    rw [abs_sub_comm Y y, show x - X + (X - Y) + (Y - y) = x - y by ring] at this
    exact this
  have t2 := abs_lt.1 hy
  have t3 := le_abs_self y
  have t4 := abs_nonneg (X - Y)
  linarith

/-! ## The draws for which the assertion fails -/

theorem logistic_log {t : ℝ} (ht : 0 < t) : logistic (Real.log t) = t / (1 + t) := by
  unfold logistic
  rw [Real.exp_neg, Real.exp_log ht]
  field_simp
  ring

/-- the draw of the example: the exposure depends on nothing, and the mediator on the exposure -/
theorem far_variance : 1 / 20 * frontVariance (1 / 2) (Real.log (73 / 27)) (11 / 2) 0 (-(1 / 4)) (testResponse (1 / 2) (11 / 2) (-(1 / 4))) <
    |frontVariance (1 / 2) (Real.log (73 / 27)) (11 / 2) 0 (-(1 / 4)) (Example.trueResponse (1 / 2) (11 / 2) 0 (-(1 / 4))) -
      frontVariance (1 / 2) (Real.log (73 / 27)) (11 / 2) 0 (-(1 / 4)) (testResponse (1 / 2) (11 / 2) (-(1 / 4)))| := by
  have hl : logistic (Real.log (73 / 27)) = 73 / 100 := by rw [logistic_log (by norm_num)]; norm_num
  have hz := ParametersTest.logistic_zero
  unfold frontVariance frontMean frontScore frontDoorPoint Example.trueResponse testResponse frontCond clamp exposedMean unexposedMean
  rw [hl, hz]
  norm_num

theorem log_lt_one : Real.log (73 / 27) < 1 := by
  rw [Real.log_lt_iff_lt_exp (by norm_num)]
  have := Real.exp_one_gt_d9
  norm_num at this ⊢
  linarith

theorem test_continuousAt {t0 : Fin 5 → ℝ} (hp : 0 < 1 / 5 + 3 / 5 * t0 0 ∧ 1 / 5 + 3 / 5 * t0 0 < 1) :
    ContinuousAt (fun t : Fin 5 → ℝ => frontVariance (1 / 5 + 3 / 5 * t 0) (-1 + 2 * t 1) (5 + 5 * t 2) (-(3 / 10) + 3 / 5 * t 3) (-(3 / 10) + 3 / 5 * t 4)
      (testResponse (1 / 5 + 3 / 5 * t 0) (5 + 5 * t 2) (-(3 / 10) + 3 / 5 * t 4))) t0 := by
  refine variance_continuousAt (p := fun t : Fin 5 → ℝ => 1 / 5 + 3 / 5 * t 0) (beta := fun t => -1 + 2 * t 1) (gamma := fun t => 5 + 5 * t 2) (alpha1 := fun t => -(3 / 10) + 3 / 5 * t 3)
    (alpha2 := fun t => -(3 / 10) + 3 / 5 * t 4) ?_ ?_ ?_ ?_ ?_ (fun x z => ?_) hp
  · exact Continuous.continuousAt (by fun_prop)
  · exact Continuous.continuousAt (by fun_prop)
  · exact Continuous.continuousAt (by fun_prop)
  · exact Continuous.continuousAt (by fun_prop)
  · exact Continuous.continuousAt (by fun_prop)
  · unfold testResponse
    exact Continuous.continuousAt (by fun_prop)

theorem true_continuousAt {t0 : Fin 5 → ℝ} (hp : 0 < 1 / 5 + 3 / 5 * t0 0 ∧ 1 / 5 + 3 / 5 * t0 0 < 1) :
    ContinuousAt (fun t : Fin 5 → ℝ => frontVariance (1 / 5 + 3 / 5 * t 0) (-1 + 2 * t 1) (5 + 5 * t 2) (-(3 / 10) + 3 / 5 * t 3) (-(3 / 10) + 3 / 5 * t 4)
      (Example.trueResponse (1 / 5 + 3 / 5 * t 0) (5 + 5 * t 2) (-(3 / 10) + 3 / 5 * t 3) (-(3 / 10) + 3 / 5 * t 4))) t0 := by
  have hL : Continuous fun t : Fin 5 → ℝ => logistic (-(3 / 10) + 3 / 5 * t 3) := continuous_logistic.comp (by fun_prop)
  have hP : Continuous fun t : Fin 5 → ℝ => 1 / 5 + 3 / 5 * t 0 := by fun_prop
  have l0 : 0 < logistic (-(3 / 10) + 3 / 5 * t0 3) ∧ logistic (-(3 / 10) + 3 / 5 * t0 3) < 1 := by
    unfold logistic
    have := Real.exp_pos (-(-(3 / 10) + 3 / 5 * t0 3))
    exact ⟨by positivity, by rw [div_lt_one (by linarith)]; linarith⟩
  have h1 : ContinuousAt (fun t : Fin 5 → ℝ => exposedMean (1 / 5 + 3 / 5 * t 0) (-(3 / 10) + 3 / 5 * t 3)) t0 := by
    unfold exposedMean
    refine ContinuousAt.div (hP.mul hL).continuousAt ((hP.mul hL).add ((continuous_const.sub hP).div_const 2)).continuousAt ?_
    generalize 1 / 5 + 3 / 5 * t0 0 = p at *
    generalize logistic _ = l at *
    have : 0 < p * l + (1 - p) / 2 := by nlinarith
    exact this.ne'
  have h2 : ContinuousAt (fun t : Fin 5 → ℝ => unexposedMean (1 / 5 + 3 / 5 * t 0) (-(3 / 10) + 3 / 5 * t 3)) t0 := by
    unfold unexposedMean
    refine ContinuousAt.div (hP.mul (continuous_const.sub hL)).continuousAt ((hP.mul (continuous_const.sub hL)).add ((continuous_const.sub hP).div_const 2)).continuousAt ?_
    generalize 1 / 5 + 3 / 5 * t0 0 = p at *
    generalize logistic _ = l at *
    have : 0 < p * (1 - l) + (1 - p) / 2 := by nlinarith
    exact this.ne'
  refine variance_continuousAt (p := fun t : Fin 5 → ℝ => 1 / 5 + 3 / 5 * t 0) (beta := fun t => -1 + 2 * t 1) (gamma := fun t => 5 + 5 * t 2) (alpha1 := fun t => -(3 / 10) + 3 / 5 * t 3)
    (alpha2 := fun t => -(3 / 10) + 3 / 5 * t 4) ?_ ?_ ?_ ?_ ?_ (fun x z => ?_) hp
  · exact hP.continuousAt
  · exact Continuous.continuousAt (by fun_prop)
  · exact Continuous.continuousAt (by fun_prop)
  · exact Continuous.continuousAt (by fun_prop)
  · exact Continuous.continuousAt (by fun_prop)
  · have h3 : Continuous fun t : Fin 5 → ℝ => -(3 / 10) + 3 / 5 * t 4 := by fun_prop
    have h4 : Continuous fun t : Fin 5 → ℝ => (5 + 5 * t 2) * z := by fun_prop
    exact (h3.continuousAt.mul (h2.add ((h1.sub h2).mul continuousAt_const))).add h4.continuousAt

/-- **C109** The draws of `frontdoor_scm` for which the two variances differ by more than 5 % have positive probability. -/
theorem C109_failing_draws_violated : 0 < volume {t : Fin 5 → ℝ | (∀ i, t i ∈ Set.Ico (0 : ℝ) 1) ∧ ∃ p beta gamma alpha1 alpha2 : ℝ,
    p = 1 / 5 + 3 / 5 * t 0 ∧ beta = -1 + 2 * t 1 ∧ gamma = 5 + 5 * t 2 ∧ alpha1 = -(3 / 10) + 3 / 5 * t 3 ∧ alpha2 = -(3 / 10) + 3 / 5 * t 4 ∧
      1 / 20 * frontVariance p beta gamma alpha1 alpha2 (testResponse p gamma alpha2) <
        |frontVariance p beta gamma alpha1 alpha2 (Example.trueResponse p gamma alpha1 alpha2) - frontVariance p beta gamma alpha1 alpha2 (testResponse p gamma alpha2)|} := by
  have hlog : 0 < Real.log (73 / 27) := Real.log_pos (by norm_num)
  obtain ⟨t0, ht0⟩ : ∃ t0 : Fin 5 → ℝ, t0 = ![1 / 2, (1 + Real.log (73 / 27)) / 2, 1 / 10, 1 / 2, 1 / 12] := ⟨_, rfl⟩
  have e0 : (1 / 5 + 3 / 5 * t0 0 : ℝ) = 1 / 2 := by simp [ht0]; norm_num
  have e1 : (-1 + 2 * t0 1 : ℝ) = Real.log (73 / 27) := by simp [ht0]; ring
  have e2 : (5 + 5 * t0 2 : ℝ) = 11 / 2 := by simp [ht0]; norm_num
  have e3 : (-(3 / 10) + 3 / 5 * t0 3 : ℝ) = 0 := by simp [ht0]; norm_num
  have e4 : (-(3 / 10) + 3 / 5 * t0 4 : ℝ) = -(1 / 4) := by simp [ht0]; norm_num
  have hc : ∀ i : Fin 5, ContinuousAt (fun t : Fin 5 → ℝ => t i) t0 := fun i => continuousAt_apply i t0
  have hp0 : 0 < 1 / 5 + 3 / 5 * t0 0 ∧ 1 / 5 + 3 / 5 * t0 0 < 1 := by rw [e0]; norm_num
  have hV := test_continuousAt hp0
  have hV' := true_continuousAt hp0
  refine Measure.measure_pos_of_mem_nhds volume (x := t0) ?_
  have hbox : ∀ᶠ t in 𝓝 t0, ∀ i, t i ∈ Set.Ico (0 : ℝ) 1 := by
    refine eventually_all.2 fun i => (hc i).eventually (Ico_mem_nhds ?_ ?_)
    · fin_cases i <;> simp [ht0]
      linarith
    · have := log_lt_one
      fin_cases i <;> simp [ht0] <;> linarith
  have hfar := (hV.const_mul (1 / 20)).eventually_lt (hV'.sub hV).abs (by
    simp only [Pi.sub_apply, e0, e1, e2, e3, e4]
    exact far_variance)
  filter_upwards [hbox, hfar] with t h1 h2
  exact ⟨h1, _, _, _, _, _, rfl, rfl, rfl, rfl, rfl, h2⟩

/-! ## Examples -/

/-- a ridge regression with intercept, with its coefficients -/
noncomputable def interceptFit (alpha : ℝ) (_ : LinEst Unit ℝ) (rows : List (List ℝ)) (ys : List ℝ) : Except PyErr Unit × LinEst Unit ℝ :=
  (.ok (), ⟨List.ofFn fun j : Fin (rows.headD []).length => (Classical.epsilon fun b : Fin ((rows.headD []).length + 1) → ℝ =>
      ∀ c : Fin ((rows.headD []).length + 1) → ℝ, ridgeInterceptObjective alpha rows ys b ≤ ridgeInterceptObjective alpha rows ys c) j.succ,
    (Classical.epsilon fun b : Fin ((rows.headD []).length + 1) → ℝ => ∀ c : Fin ((rows.headD []).length + 1) → ℝ, ridgeInterceptObjective alpha rows ys b ≤ ridgeInterceptObjective alpha rows ys c) 0, ()⟩)

theorem interceptFit_isRidge {alpha : ℝ} (ha : 0 < alpha) : (LinEst.predictor (fun x => x) (interceptFit alpha) fun m => m).IsRidgeIntercept (fun _ => True) alpha := by
  intro m d rows ys _ _ hne hlen hd
  have hh : (rows.headD []).length = d := by
    cases rows with
    | nil => exact absurd rfl hne
    | cons r rows => exact hd r (by simp)
  subst hh
  refine ⟨_, _, rfl, trivial, fun r hr => ?_, Classical.epsilon_spec (exists_ridgeIntercept ha hlen hne)⟩
  show (List.zipWith (· * ·) (List.ofFn _) r).sum + _ = _
  rw [ParametersTest.zipWith_ofFn _ r hr, add_comm]
  rfl

open NumbersDemo in
/-- non-vacuity of `C109_front_door_variance_violated` -/
example (rng : Verif.Rng V ℝ) (v0 : V) : Tendsto (fun n => space {ω | ¬ ∀ᶠ N : ℕ in atTop, ∀ fuel ≥ N,
    (frontDoorVariance Numbers.gen (Numbers.rng rng) (LinEst.predictor (fun x => x) (interceptFit 1) fun m => m) ⟨[], 0, ()⟩ n N fuel
      (Numbers.start [1 / 2, (1 + Real.log (73 / 27)) / 2, 1 / 10, 1 / 2, 1 / 12] (fun i => ω (.inl i)) (fun i => ω (.inr i)) v0)).1 = .ok (some false)}) atTop (𝓝 0) := by
  have h0 : 0 ≤ Real.log (73 / 27) := Real.log_nonneg (by norm_num)
  refine C109_front_door_variance_violated (SR := fun _ => True) (p := 1 / 2) (beta := Real.log (73 / 27)) (gamma := 11 / 2) (alpha1 := 0) (alpha2 := -(1 / 4)) randomNumbers (by norm_num)
    ⟨by linarith, by linarith [log_lt_one]⟩ (by norm_num) (fun _ _ _ _ _ => rfl) (interceptFit_isRidge one_pos) zero_le_one trivial rng v0 (by norm_num) (by ring) (by norm_num) (by norm_num)
    (by norm_num) far_variance

open NumbersDemo in
/-- non-vacuity of `C109_front_door_variance`: an SCM whose confounder has no effect on the response -/
example (rng : Verif.Rng V ℝ) (v0 : V) : Tendsto (fun n => space {ω | ¬ ∀ᶠ N : ℕ in atTop, ∀ fuel ≥ N,
    (frontDoorVariance Numbers.gen (Numbers.rng rng) (LinEst.predictor (fun x => x) (interceptFit 1) fun m => m) ⟨[], 0, ()⟩ n N fuel
      (Numbers.start [1 / 2, 1 / 2, 0, 1 / 2, 1 / 2] (fun i => ω (.inl i)) (fun i => ω (.inr i)) v0)).1 = .ok (some true)}) atTop (𝓝 0) := by
  refine C109_front_door_variance (SR := fun _ => True) (p := 1 / 2) (beta := 0) (gamma := 5) (alpha1 := 0) (alpha2 := 0) randomNumbers (by norm_num)
    (by norm_num) (by norm_num) (fun _ _ _ _ _ => rfl) (interceptFit_isRidge one_pos) zero_le_one trivial rng v0 (by norm_num) (by norm_num) (by norm_num) (by norm_num)
    (by norm_num) ?_
  unfold frontVariance frontMean frontScore frontDoorPoint Example.trueResponse testResponse frontCond clamp exposedMean unexposedMean
  rw [ParametersTest.logistic_zero]
  norm_num

end ArmsTest
end Verif
