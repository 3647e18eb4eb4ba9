import Verif.Lemmas.FrontUnit3
import Verif.Props.ExampleScm5

/-!
# Property C103: what arms that are shown the confounder of the front-door example converge to
-/

set_option linter.unusedSectionVars false
set_option linter.unusedSimpArgs false

namespace Verif
open MeasureTheory ProbabilityTheory Filter Topology

/-- `get_remove_coordinates_fn(1)` shows the first of two covariates -/
theorem shows_removeSecond : Shows (ExpData.removeCoord 1) 2 1 fun u => { u with z := ExpData.gather [0] u.z } where
  dataset := fun us hus => by
    rw [(ExpData.C08_removeCoord_eq_mask 1 _ (Obs.dataset_wf us hus) rfl).2 1 (by rfl)]
    exact (shows_coordMask 2 [0] (by simp)).dataset us hus
  covariates := (shows_coordMask 2 [0] (by simp)).covariates

/-- the default transformation shows the units as they are -/
theorem shows_identity (k : ℕ) : Shows ExpData.identityFn k k id where
  dataset := fun us _ => by rw [List.map_id]; rfl
  covariates := fun _ h => h

namespace Example
open Section5
variable {V : Type}

theorem frontUnit_confounder (p beta gamma alpha1 alpha2 : ℝ) (q : (ℝ × ℝ) × ℝ × ℝ) :
    { frontUnitOf p beta gamma alpha1 alpha2 q with z := ExpData.gather [0] (frontUnitOf p beta gamma alpha1 alpha2 q).z } = confounderUnit p beta gamma alpha1 alpha2 q := rfl

theorem frontUnit_complete (p beta gamma alpha1 alpha2 : ℝ) (q : (ℝ × ℝ) × ℝ × ℝ) : frontUnitOf p beta gamma alpha1 alpha2 q = completeUnit p beta gamma alpha1 alpha2 q := rfl

section
variable {Ω : Type} [MeasurableSpace Ω] {P : Measure Ω} [IsProbabilityMeasure P] {U G : ℕ → Ω → ℝ} {a b c d e : ℝ} {cfg : SSConfig (Cell ℝ) ℝ} {m : ℕ} {δ : ℝ}

/-- **C103** `run_single_arm` with an arm with an AIPW parameter (ridge regression without intercept for the response, logistic regression for the propensity) on the data of
`frontdoor_scm` without the mediator, whatever parameters are drawn: with probability one, once enough samples are taken, the estimated effect is as close as desired to the returned
effect, although no line without intercept fits the responses. -/
theorem C103_confounder_aipw {M Q : Type} {R : Predictor M ℝ} {C : Predictor Q ℝ} {SR : M → Prop} {SC : Q → Prop} {lam κ : ℝ} {μ : ℤ}
    (hN : RandomNumbers P U G) (ha : a ∈ Set.Ico (0 : ℝ) 1) (hb : b ∈ Set.Ico (0 : ℝ) 1) (hd : d ∈ Set.Ico (0 : ℝ) 1) (rng : Verif.Rng V ℝ) (hm : 2 ≤ m)
    (h0 : 0 < δ) (h1 : δ < 1) (halg : cfg.alg = .clt ∨ cfg.alg = .chi2) (hstable : cfg.stable = true) (ht : cfg.transform = ExpData.removeCoord 1)
    (hR : R.IsRidge SR lam) (hlam : 0 < lam) (hC : C.IsLogistic SC) (hμ : 1 ≤ μ) (hκ : 1 / 10 ^ 15 ≤ κ) (hκ' : κ ≤ 1 / 4)
    {s0 : ArmState (AIPW M Q ℝ) (Cell ℝ) ℝ} (hs : s0.split = none) (hnp : s0.numPulled = 0) (hreg : AIPW.Regular 1 SR SC μ κ s0.eta) (cost : Fl ℝ) (v0 : V) :
    ∃ v, ∀ᵐ ω ∂P, ∃ F w, frontDoor Numbers.gen (Numbers.start [a, b, c, d, e] (fun i => U i ω) (fun i => G i ω) v0) = (.ok F, w) ∧
      Recovers (ssArmOps cfg (AIPW.ops R C) realLib (Numbers.rng rng) cost) (fun s => s.ate) (generate F.scm) m (.fin δ) (s0, w) F.stats.tau v := by
  have hm0 : 0 < m := by omega
  have hT := fourNumbers_measurable hN m 0
  have hL := fourNumbers_law hN hm0 0
  obtain ⟨a0, a1⟩ := ha
  obtain ⟨b0, b1⟩ := hb
  obtain ⟨d0, d1⟩ := hd
  have hp : 0 < 1 / 5 + 3 / 5 * a ∧ 1 / 5 + 3 / 5 * a < 1 := ⟨by linarith, by linarith⟩
  have la := logistic_bounds (t := -(3 / 10) + 3 / 5 * d) (by linarith) (by linarith)
  have lb := logistic_bounds (t := -1 + 2 * b) (by linarith) (by linarith)
  obtain ⟨S, hS, -⟩ := C65_frontdoor_sampler (Numbers.gen (V := V)) (1 / 5 + 3 / 5 * a) (-1 + 2 * b) (5 + 5 * c) (-(3 / 10) + 3 / 5 * d) (-(3 / 10) + 3 / 5 * e) ⟨hp.1.le, hp.2.le⟩
  have hshow : Shows cfg.transform 2 1 fun u => { u with z := ExpData.gather [0] u.z } := by rw [ht]; exact shows_removeSecond
  have hcons := AIPW.C99_consistent (k := 1) (cfg := cfg) rng
    (U := fun k ω => confounderUnit (1 / 5 + 3 / 5 * a) (-1 + 2 * b) (5 + 5 * c) (-(3 / 10) + 3 / 5 * d) (-(3 / 10) + 3 / 5 * e) (fourNumbers U G m k ω)) one_pos
    ((fourNumbers_iid hN hm0).comp measurable_confounder) (fun _ _ => rfl) (fun i ω => confounder_binary _) (fun j => confounder_memLp_z hT hL hp j 8)
    (front_memLp_y hT hL hp 8 (by norm_num)) (confounder_nondegenerate hT hL hp la lb) (confounder_leastSquares hT hL hp la) (confounder_logistic hT hL hp la lb)
    hR hlam hC hμ hκ (by linarith) hm h0 h1 halg hstable
    (fun ω n => hshow.blocks (u := fun i => frontUnitOf _ _ _ _ _ (fourNumbers U G m i ω)) (fun _ => rfl) m n) hs hnp hreg
  rw [confounder_mean hT hL hp hκ' la] at hcons
  generalize Var[_; P] = v at hcons
  refine ⟨v, ?_⟩
  filter_upwards [recovers_front (a := a) (b := b) (c := c) (d := d) (e := e) hm ⟨hp.1.le, hp.2.le⟩ hshow hS cost v0 hcons] with ω hω
  exact ⟨_, _, by rw [frontDoor_start, hS]; rfl, hω⟩

/-- **C103** The same arm on all covariates, so that it also adjusts for the mediator: the estimated effect is as close as desired to 0, the direct effect. -/
theorem C103_complete_aipw {M Q : Type} {R : Predictor M ℝ} {C : Predictor Q ℝ} {SR : M → Prop} {SC : Q → Prop} {lam κ : ℝ} {μ : ℤ}
    (hN : RandomNumbers P U G) (ha : a ∈ Set.Ico (0 : ℝ) 1) (hb : b ∈ Set.Ico (0 : ℝ) 1) (hd : d ∈ Set.Ico (0 : ℝ) 1) (rng : Verif.Rng V ℝ) (hm : 2 ≤ m)
    (h0 : 0 < δ) (h1 : δ < 1) (halg : cfg.alg = .clt ∨ cfg.alg = .chi2) (hstable : cfg.stable = true) (ht : cfg.transform = ExpData.identityFn)
    (hR : R.IsRidge SR lam) (hlam : 0 < lam) (hC : C.IsLogistic SC) (hμ : 1 ≤ μ) (hκ : 1 / 10 ^ 15 ≤ κ) (hκ' : κ ≤ 1 / 2)
    {s0 : ArmState (AIPW M Q ℝ) (Cell ℝ) ℝ} (hs : s0.split = none) (hnp : s0.numPulled = 0) (hreg : AIPW.Regular 2 SR SC μ κ s0.eta) (cost : Fl ℝ) (v0 : V) :
    ∃ v, ∀ᵐ ω ∂P, ∃ F w, frontDoor Numbers.gen (Numbers.start [a, b, c, d, e] (fun i => U i ω) (fun i => G i ω) v0) = (.ok F, w) ∧
      Recovers (ssArmOps cfg (AIPW.ops R C) realLib (Numbers.rng rng) cost) (fun s => s.ate) (generate F.scm) m (.fin δ) (s0, w) 0 v := by
  have hm0 : 0 < m := by omega
  have hT := fourNumbers_measurable hN m 0
  have hL := fourNumbers_law hN hm0 0
  obtain ⟨a0, a1⟩ := ha
  obtain ⟨b0, b1⟩ := hb
  obtain ⟨d0, d1⟩ := hd
  have hp : 0 < 1 / 5 + 3 / 5 * a ∧ 1 / 5 + 3 / 5 * a < 1 := ⟨by linarith, by linarith⟩
  have la := logistic_bounds (t := -(3 / 10) + 3 / 5 * d) (by linarith) (by linarith)
  have lb := logistic_bounds (t := -1 + 2 * b) (by linarith) (by linarith)
  obtain ⟨S, hS, -⟩ := C65_frontdoor_sampler (Numbers.gen (V := V)) (1 / 5 + 3 / 5 * a) (-1 + 2 * b) (5 + 5 * c) (-(3 / 10) + 3 / 5 * d) (-(3 / 10) + 3 / 5 * e) ⟨hp.1.le, hp.2.le⟩
  have hshow : Shows cfg.transform 2 2 id := by rw [ht]; exact shows_identity 2
  obtain ⟨θ, hθ⟩ := (complete_notSeparable (gamma := 5 + 5 * c) (alpha2 := -(3 / 10) + 3 / 5 * e) hT hL hp la lb).exists_logistic (measurable_complete.comp hT).aemeasurable
    (Eventually.of_forall fun ω => complete_binary (gamma := 5 + 5 * c) (alpha2 := -(3 / 10) + 3 / 5 * e) _) (fun j => (complete_memLp_z hT hL hp j 1).integrable le_rfl)
  have hcons := AIPW.C99_consistent (k := 2) (cfg := cfg) rng
    (U := fun k ω => completeUnit (1 / 5 + 3 / 5 * a) (-1 + 2 * b) (5 + 5 * c) (-(3 / 10) + 3 / 5 * d) (-(3 / 10) + 3 / 5 * e) (fourNumbers U G m k ω)) two_pos
    ((fourNumbers_iid hN hm0).comp measurable_complete) (fun _ _ => rfl) (fun i ω => complete_binary _) (fun j => complete_memLp_z hT hL hp j 8)
    (front_memLp_y hT hL hp 8 (by norm_num)) (complete_nondegenerate hT hL hp la lb) (complete_leastSquares hT hL hp) hθ
    hR hlam hC hμ hκ hκ' hm h0 h1 halg hstable
    (fun ω n => hshow.blocks (u := fun i => frontUnitOf _ _ _ _ _ (fourNumbers U G m i ω)) (fun _ => rfl) m n) hs hnp hreg
  rw [complete_mean hT hL hp] at hcons
  generalize Var[_; P] = v at hcons
  refine ⟨v, ?_⟩
  filter_upwards [recovers_front (a := a) (b := b) (c := c) (d := d) (e := e) hm ⟨hp.1.le, hp.2.le⟩ hshow hS cost v0 hcons] with ω hω
  exact ⟨_, _, by rw [frontDoor_start, hS]; rfl, hω⟩

/-- **C103** The same with a `LinearRegressionParameter` on all covariates. -/
theorem C103_complete_regression (hN : RandomNumbers P U G) (ha : a ∈ Set.Ico (0 : ℝ) 1) (hb : b ∈ Set.Ico (0 : ℝ) 1) (hd : d ∈ Set.Ico (0 : ℝ) 1) (rng : Verif.Rng V ℝ) (hm : 2 ≤ m)
    (h0 : 0 < δ) (h1 : δ < 1) (halg : cfg.alg = .clt ∨ cfg.alg = .chi2) (hstable : cfg.stable = true) (ht : cfg.transform = ExpData.identityFn)
    {s0 : ArmState (LinReg 2 ℝ) (Cell ℝ) ℝ} (hs : s0.split = none) (hnp : s0.numPulled = 0) (hl : 0 < s0.eta.lReg) (cost : Fl ℝ) (v0 : V) :
    ∃ v, ∀ᵐ ω ∂P, ∃ F w, frontDoor Numbers.gen (Numbers.start [a, b, c, d, e] (fun i => U i ω) (fun i => G i ω) v0) = (.ok F, w) ∧
      Recovers (ssArmOps cfg LinReg.ops realLib (Numbers.rng rng) cost) (fun s => s.ate) (generate F.scm) m (.fin δ) (s0, w) 0 v := by
  have hm0 : 0 < m := by omega
  have hT := fourNumbers_measurable hN m 0
  have hL := fourNumbers_law hN hm0 0
  obtain ⟨a0, a1⟩ := ha
  obtain ⟨b0, b1⟩ := hb
  obtain ⟨d0, d1⟩ := hd
  have hp : 0 < 1 / 5 + 3 / 5 * a ∧ 1 / 5 + 3 / 5 * a < 1 := ⟨by linarith, by linarith⟩
  have la := logistic_bounds (t := -(3 / 10) + 3 / 5 * d) (by linarith) (by linarith)
  have lb := logistic_bounds (t := -1 + 2 * b) (by linarith) (by linarith)
  obtain ⟨S, hS, -⟩ := C65_frontdoor_sampler (Numbers.gen (V := V)) (1 / 5 + 3 / 5 * a) (-1 + 2 * b) (5 + 5 * c) (-(3 / 10) + 3 / 5 * d) (-(3 / 10) + 3 / 5 * e) ⟨hp.1.le, hp.2.le⟩
  have hshow : Shows cfg.transform 2 2 id := by rw [ht]; exact shows_identity 2
  have hreg := complete_memLp_regressor (beta := -1 + 2 * b) (gamma := 5 + 5 * c) (alpha1 := -(3 / 10) + 3 / 5 * d) (alpha2 := -(3 / 10) + 3 / 5 * e) hT hL hp
  obtain ⟨M, hM⟩ := (complete_nondegenerate (gamma := 5 + 5 * c) (alpha2 := -(3 / 10) + 3 / 5 * e) hT hL hp la lb).exists_inverse fun j => hreg j 2
  have hcons := LinReg.C99_consistent (k := 2) (cfg := cfg) rng
    (U := fun k ω => completeUnit (1 / 5 + 3 / 5 * a) (-1 + 2 * b) (5 + 5 * c) (-(3 / 10) + 3 / 5 * d) (-(3 / 10) + 3 / 5 * e) (fourNumbers U G m k ω))
    ((fourNumbers_iid hN hm0).comp measurable_complete) (fun _ _ => rfl) (fun j => hreg j 2) (fun j => complete_memLp_prod hT hL hp j 4 (by norm_num)) hM
    (complete_leastSquares hT hL hp) hm h0 h1 halg hstable
    (fun ω n => hshow.blocks (u := fun i => frontUnitOf _ _ _ _ _ (fourNumbers U G m i ω)) (fun _ => rfl) m n) hs hnp hl
  generalize Var[_; P] = v at hcons
  refine ⟨v, ?_⟩
  filter_upwards [recovers_front (a := a) (b := b) (c := c) (d := d) (e := e) hm ⟨hp.1.le, hp.2.le⟩ hshow hS cost v0 hcons] with ω hω
  exact ⟨_, _, by rw [frontDoor_start, hS]; rfl, hω⟩

/-- **C103** A `LinearRegressionParameter` that is shown the confounder only: its line has no intercept, and the estimates converge to `confounderRegression`. -/
theorem C103_confounder_regression (hN : RandomNumbers P U G) (ha : a ∈ Set.Ico (0 : ℝ) 1) (hb : b ∈ Set.Ico (0 : ℝ) 1) (hd : d ∈ Set.Ico (0 : ℝ) 1) (rng : Verif.Rng V ℝ) (hm : 2 ≤ m)
    (h0 : 0 < δ) (h1 : δ < 1) (halg : cfg.alg = .clt ∨ cfg.alg = .chi2) (hstable : cfg.stable = true) (ht : cfg.transform = ExpData.removeCoord 1)
    {s0 : ArmState (LinReg 1 ℝ) (Cell ℝ) ℝ} (hs : s0.split = none) (hnp : s0.numPulled = 0) (hl : 0 < s0.eta.lReg) (cost : Fl ℝ) (v0 : V) :
    ∃ v, ∀ᵐ ω ∂P, ∃ F w, frontDoor Numbers.gen (Numbers.start [a, b, c, d, e] (fun i => U i ω) (fun i => G i ω) v0) = (.ok F, w) ∧
      Recovers (ssArmOps cfg LinReg.ops realLib (Numbers.rng rng) cost) (fun s => s.ate) (generate F.scm) m (.fin δ) (s0, w)
        (confounderRegression F.stats.muU F.beta F.gamma F.alpha1) v := by
  have hm0 : 0 < m := by omega
  have hT := fourNumbers_measurable hN m 0
  have hL := fourNumbers_law hN hm0 0
  obtain ⟨a0, a1⟩ := ha
  obtain ⟨b0, b1⟩ := hb
  obtain ⟨d0, d1⟩ := hd
  have hp : 0 < 1 / 5 + 3 / 5 * a ∧ 1 / 5 + 3 / 5 * a < 1 := ⟨by linarith, by linarith⟩
  have la := logistic_bounds (t := -(3 / 10) + 3 / 5 * d) (by linarith) (by linarith)
  have lb := logistic_bounds (t := -1 + 2 * b) (by linarith) (by linarith)
  obtain ⟨S, hS, -⟩ := C65_frontdoor_sampler (Numbers.gen (V := V)) (1 / 5 + 3 / 5 * a) (-1 + 2 * b) (5 + 5 * c) (-(3 / 10) + 3 / 5 * d) (-(3 / 10) + 3 / 5 * e) ⟨hp.1.le, hp.2.le⟩
  have hshow : Shows cfg.transform 2 1 fun u => { u with z := ExpData.gather [0] u.z } := by rw [ht]; exact shows_removeSecond
  have hreg := confounder_memLp_regressor (beta := -1 + 2 * b) (gamma := 5 + 5 * c) (alpha1 := -(3 / 10) + 3 / 5 * d) (alpha2 := -(3 / 10) + 3 / 5 * e) hT hL hp
  obtain ⟨M, hM⟩ := (confounder_nondegenerate (gamma := 5 + 5 * c) (alpha2 := -(3 / 10) + 3 / 5 * e) hT hL hp la lb).exists_inverse fun j => hreg j 2
  have hcons := LinReg.C99_consistent (k := 1) (cfg := cfg) rng
    (U := fun k ω => confounderUnit (1 / 5 + 3 / 5 * a) (-1 + 2 * b) (5 + 5 * c) (-(3 / 10) + 3 / 5 * d) (-(3 / 10) + 3 / 5 * e) (fourNumbers U G m k ω))
    ((fourNumbers_iid hN hm0).comp measurable_confounder) (fun _ _ => rfl) (fun j => hreg j 2) (fun j => confounder_memLp_prod hT hL hp j 4 (by norm_num)) hM
    (confounder_leastSquares hT hL hp la) hm h0 h1 halg hstable
    (fun ω n => hshow.blocks (u := fun i => frontUnitOf _ _ _ _ _ (fourNumbers U G m i ω)) (fun _ => rfl) m n) hs hnp hl
  generalize Var[_; P] = v at hcons
  refine ⟨v, ?_⟩
  filter_upwards [recovers_front (a := a) (b := b) (c := c) (d := d) (e := e) hm ⟨hp.1.le, hp.2.le⟩ hshow hS cost v0 hcons] with ω hω
  exact ⟨_, _, by rw [frontDoor_start, hS]; rfl, hω⟩

end

/-- **C103** For all parameters `frontdoor_scm` can draw, the limit of the regression on the confounder exceeds the effect by more than 5/6. -/
theorem C103_regression_error {p beta gamma alpha1 alpha2 : ℝ} (hp : p ∈ Set.Ico (1 / 5 : ℝ) (4 / 5)) (hg : gamma ∈ Set.Ico (5 : ℝ) 10)
    (h1 : alpha1 ∈ Set.Ico (-(3 / 10) : ℝ) (3 / 10)) :
    (frontDoorStats p beta gamma alpha1 alpha2).tau + 5 / 6 < confounderRegression p beta gamma alpha1 := by
  obtain ⟨m1, m2⟩ := logistic_bounds (t := alpha1) (by linarith [h1.1]) (by linarith [h1.2])
  obtain ⟨p0, p1⟩ := hp
  obtain ⟨g0, g1⟩ := hg
  show gamma * (g beta - 1 / 2) + 5 / 6 < _
  rw [g_eq]
  unfold confounderRegression
  generalize logistic alpha1 = l at *
  have hq : p * l * (1 - l) ≤ p / 4 := by nlinarith [sq_nonneg (l - 1 / 2)]
  have hq0 : 0 < p * l * (1 - l) := mul_pos (mul_pos (by linarith) (by linarith)) (by linarith)
  generalize p * l * (1 - l) = q at *
  have hw : q / (q + (1 - p) / 2) < 2 / 3 := by
    rw [div_lt_iff₀ (by linarith)]
    linarith
  nlinarith

/-! ## Non-vacuity -/

/-- the configuration of the examples: the mediator is removed -/
noncomputable def confounderCfg : SSConfig (Cell ℝ) ℝ := { LinReg.demoCfg .clt with transform := ExpData.removeCoord 1 }

open NumbersDemo AIPW Arm in
/-- non-vacuity of `C103_confounder_aipw` -/
example (rng : Verif.Rng V ℝ) (v0 : V) : ∃ v, ∀ᵐ ω ∂space,
    ∃ F w, frontDoor Numbers.gen (Numbers.start [1 / 2, 1 / 4, 2 / 3, 1 / 3, 0] (fun i => ω (.inl i)) (fun i => ω (.inr i)) v0) = (.ok F, w) ∧
      Recovers (ssArmOps confounderCfg (AIPW.ops (idealRidge 1) idealLogistic) realLib (Numbers.rng rng) (.fin 1)) (fun s => s.ate) (generate F.scm) 100 (.fin (1 / 20))
        (init fourNew, w) F.stats.tau v :=
  C103_confounder_aipw (SR := fun _ => True) (SC := fun _ => True) randomNumbers (by norm_num) (by norm_num) (by norm_num) rng (by norm_num) (by norm_num) (by norm_num) (Or.inl rfl) rfl
    rfl (idealRidge_isRidge (alpha := 1) (by norm_num)) (by norm_num) idealLogistic_isLogistic (by norm_num) (by norm_num) (by norm_num) rfl rfl four_regular _ v0

open NumbersDemo AIPW Arm in
/-- non-vacuity of `C103_complete_aipw` -/
example (rng : Verif.Rng V ℝ) (v0 : V) : ∃ v, ∀ᵐ ω ∂space,
    ∃ F w, frontDoor Numbers.gen (Numbers.start [1 / 2, 1 / 4, 2 / 3, 1 / 3, 0] (fun i => ω (.inl i)) (fun i => ω (.inr i)) v0) = (.ok F, w) ∧
      Recovers (ssArmOps (LinReg.demoCfg .chi2) (AIPW.ops (idealRidge 1) idealLogistic) realLib (Numbers.rng rng) (.fin 1)) (fun s => s.ate) (generate F.scm) 100 (.fin (1 / 20))
        (init (AIPW.new 2 (fun _ => 0) (fun _ => 0) 10 (1 / 20)), w) 0 v :=
  C103_complete_aipw (SR := fun _ => True) (SC := fun _ => True) (μ := 10) (κ := 1 / 20) randomNumbers (by norm_num) (by norm_num) (by norm_num) rng (by norm_num) (by norm_num)
    (by norm_num) (Or.inr rfl) rfl rfl (idealRidge_isRidge (alpha := 1) (by norm_num)) (by norm_num) idealLogistic_isLogistic (by norm_num) (by norm_num) (by norm_num) rfl rfl
    ⟨rfl, trivial, trivial, rfl, rfl⟩ _ v0

open NumbersDemo Arm in
/-- non-vacuity of `C103_complete_regression` and `C103_confounder_regression`: the same numbers, a regularisation of 1 -/
example (rng : Verif.Rng V ℝ) (v0 : V) : (∃ v, ∀ᵐ ω ∂space,
    ∃ F w, frontDoor Numbers.gen (Numbers.start [1 / 2, 1 / 4, 2 / 3, 1 / 3, 0] (fun i => ω (.inl i)) (fun i => ω (.inr i)) v0) = (.ok F, w) ∧
      Recovers (ssArmOps (LinReg.demoCfg .clt) LinReg.ops realLib (Numbers.rng rng) (.fin 1)) (fun s => s.ate) (generate F.scm) 100 (.fin (1 / 20)) (init (LinReg.new (k := 2) 1), w) 0 v) ∧
    ∃ v, ∀ᵐ ω ∂space, ∃ F w, frontDoor Numbers.gen (Numbers.start [1 / 2, 1 / 4, 2 / 3, 1 / 3, 0] (fun i => ω (.inl i)) (fun i => ω (.inr i)) v0) = (.ok F, w) ∧
      Recovers (ssArmOps confounderCfg LinReg.ops realLib (Numbers.rng rng) (.fin 1)) (fun s => s.ate) (generate F.scm) 100 (.fin (1 / 20)) (init (LinReg.new (k := 1) 1), w)
        (confounderRegression F.stats.muU F.beta F.gamma F.alpha1) v :=
  ⟨C103_complete_regression randomNumbers (by norm_num) (by norm_num) (by norm_num) rng (by norm_num) (by norm_num) (by norm_num) (Or.inl rfl) rfl rfl rfl rfl one_pos _ v0,
    C103_confounder_regression randomNumbers (by norm_num) (by norm_num) (by norm_num) rng (by norm_num) (by norm_num) (by norm_num) (Or.inl rfl) rfl rfl rfl rfl one_pos _ v0⟩

/-- non-vacuity of `C103_regression_error` -/
example : (frontDoorStats (1 / 2) 0 6 0 0).tau = 0 ∧ confounderRegression (1 / 2) 0 6 0 = 2 := by
  constructor
  · show 6 * (logistic 0 - 1 / 2) = 0
    rw [logistic_zero]; norm_num
  · unfold confounderRegression
    rw [logistic_zero]; norm_num

end Example
end Verif
