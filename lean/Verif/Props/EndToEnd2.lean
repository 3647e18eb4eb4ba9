import Verif.Props.EndToEnd
import Verif.Props.LinRegConsistent
import Verif.Props.AipwConsistent
import Verif.Lemmas.PaperSafe

/-!
# Property C99 for arms with linear regression and AIPW parameters
-/

set_option linter.unusedSectionVars false
set_option linter.unusedSimpArgs false

namespace Verif
open MeasureTheory ProbabilityTheory Filter Topology Arm Param

/-- the arm finds its blocks in the data it is given -/
theorem Shows.blocks {transform : ExpData (Cell ℝ) → Except PyErr (ExpData (Cell ℝ))} {k0 k : ℕ} {view : Obs ℝ → Obs ℝ} (h : Shows transform k0 k view)
    {u : ℕ → Obs ℝ} (hu : ∀ i, (u i).z.length = k0) (m : ℕ) (n : ℕ) :
    ∃ d, transform d = .ok (Obs.dataset k ((List.range m).map fun i => view (u (blockStart (fun _ => m) n + i)))) := by
  refine ⟨Obs.dataset k0 ((List.range m).map fun i => u (blockStart (fun _ => m) n + i)), ?_⟩
  rw [h.dataset _ (by
    intro x hx
    obtain ⟨i, -, rfl⟩ := List.mem_map.1 hx
    exact hu _), List.map_map]
  rfl

/-- `get_coordinate_mask_fn` shows the selected covariates -/
theorem shows_coordMask (k0 : ℕ) (idx : List ℕ) (h : ∀ i ∈ idx, i < k0) :
    Shows (ExpData.coordMask (idx.map Int.ofNat)) k0 idx.length fun u => { u with z := ExpData.gather idx u.z } where
  dataset := fun us _ => by
    unfold Obs.dataset
    rw [Paper.coordMask_nat k0 _ idx _ _ h]
    simp only [List.map_map, Function.comp_def]
  covariates := fun u hu => by
    have : idx.filterMap (fun i => u.z[i]?) = idx.map fun i => u.z.getD i (.int 0) := by
      rw [← List.filterMap_eq_map]
      apply List.filterMap_congr
      intro i hi
      have : i < u.z.length := by rw [hu]; exact h i hi
      simp [this]
    show (idx.filterMap (fun i => u.z[i]?)).length = _
    rw [this, List.length_map]

/-- **C99**: arms with a `LinearRegressionParameter` are consistent arms. -/
theorem LinReg.C99_consistent {Ω V : Type} [MeasurableSpace Ω] {P : Measure Ω} [IsProbabilityMeasure P] {k : ℕ} {cfg : SSConfig (Cell ℝ) ℝ} (rng : Rng V ℝ)
    {U : ℕ → Ω → Obs ℝ} {b : Fin (k + 1) → ℝ} {M : Matrix (Fin (k + 1)) (Fin (k + 1)) ℝ} (hU : Iid P fun i ω => (U i ω).point k) (hcov : ∀ i ω, (U i ω).z.length = k)
    (h2 : ∀ j, MemLp (fun ω => regressor ((U 0 ω).point k) j) 2 P) (hy : ∀ j, MemLp (fun ω => regressor ((U 0 ω).point k) j * (U 0 ω).yv) 4 P)
    (hM : M * designMoments P (fun ω => (U 0 ω).point k) = 1) (hb : LeastSquares P (fun ω => (U 0 ω).point k) b) {m : ℕ} (hm : 2 ≤ m) {δ : ℝ} (h0 : 0 < δ) (h1 : δ < 1)
    (halg : cfg.alg = .clt ∨ cfg.alg = .chi2) (hstable : cfg.stable = true)
    (ht : ∀ ω n, ∃ d, cfg.transform d = .ok (Obs.dataset k ((List.range m).map fun i => U (blockStart (fun _ => m) n + i) ω)))
    {s0 : ArmState (LinReg k ℝ) (Cell ℝ) ℝ} (hs : s0.split = none) (hp : s0.numPulled = 0) (hl : 0 < s0.eta.lReg) :
    Consistent P k cfg LinReg.ops rng U m δ s0 (b 0) Var[fun ω => regressionScore M ((U 0 ω).point k); P] := by
  intro w
  choose s ci e0 e1 _ using fun ω : Ω => LinReg.C97_updates_succeed (k := k) (cfg := cfg) (size := fun _ => m) rng (fun _ => hm) h0 h1 halg hstable w (fun i => U i ω) (ht ω)
    (fun i => hcov i ω) s0 hs hp hl
  have hl' : ∀ᵐ ω ∂P, 0 < (s ω 0).eta.lReg := Eventually.of_forall fun ω => by rw [e0]; exact hl
  filter_upwards [LinReg.C97_estimates_converge (U := U) (s := fun n ω => s ω n) (ci := fun n ω => ci ω n) hU h2 (fun j => (hy j).mono_exponent AIPW.h24) hM hb (fun _ => hm) (Eventually.of_forall e1) hl',
    LinReg.C97_intervals_converge (U := U) (s := fun n ω => s ω n) (ci := fun n ω => ci ω n) hU h2 hy hM (fun _ => hm) halg (Eventually.of_forall e1) hl'] with ω a1 a2
  exact ⟨s ω, ci ω, e0 ω, e1 ω, a1, a2⟩

/-- **C99**: arms with an AIPW parameter (ridge regression without intercept for the response, logistic regression for the propensity) are consistent arms. -/
theorem AIPW.C99_consistent {Ω V M Q : Type} [MeasurableSpace Ω] {P : Measure Ω} [IsProbabilityMeasure P] {k : ℕ} {cfg : SSConfig (Cell ℝ) ℝ} (rng : Rng V ℝ)
    {R : Predictor M ℝ} {C : Predictor Q ℝ} {SR : M → Prop} {SC : Q → Prop} {lam κ : ℝ} {μ : ℤ}
    {U : ℕ → Ω → Obs ℝ} {b θ : Fin (k + 1) → ℝ} (hk : 0 < k) (hU : Iid P fun i ω => (U i ω).point k) (hcov : ∀ i ω, (U i ω).z.length = k)
    (hbin : ∀ i ω, (U i ω).Binary) (hz : ∀ j, MemLp (fun ω => ((U 0 ω).point k).1 j) 8 P) (hy : MemLp (fun ω => (U 0 ω).yv) 8 P)
    (hnd : Nondegenerate P fun ω => regressor ((U 0 ω).point k)) (hb : LeastSquares P (fun ω => (U 0 ω).point k) b)
    (hθ : LogisticRegression P (fun ω => (U 0 ω).point k) θ) (hR : R.IsRidge SR lam) (hl : 0 < lam) (hC : C.IsLogistic SC) (hμ : 1 ≤ μ)
    (h1 : 1 / 10 ^ 15 ≤ κ) (h2 : κ ≤ 1 / 2) {m : ℕ} (hm : 2 ≤ m) {δ : ℝ} (hδ0 : 0 < δ) (hδ1 : δ < 1)
    (halg : cfg.alg = .clt ∨ cfg.alg = .chi2) (hstable : cfg.stable = true)
    (ht : ∀ ω n, ∃ d, cfg.transform d = .ok (Obs.dataset k ((List.range m).map fun i => U (blockStart (fun _ => m) n + i) ω)))
    {s0 : ArmState (AIPW M Q ℝ) (Cell ℝ) ℝ} (hs : s0.split = none) (hp : s0.numPulled = 0) (hreg : AIPW.Regular k SR SC μ κ s0.eta) :
    Consistent P k cfg (AIPW.ops R C) rng U m δ s0
      (∫ ω, aipwScore (fun x z => linearValue b (x :: z)) (fun z => min (max (logisticValue θ z) κ) (1 - κ)) (U 0 ω) ∂P)
      Var[fun ω => aipwScore (fun x z => linearValue b (x :: z)) (fun z => min (max (logisticValue θ z) κ) (1 - κ)) (U 0 ω); P] := by
  intro w
  choose s ci e0 e1 _ using fun ω : Ω => AIPW.C98_updates_succeed (k := k) (cfg := cfg) (size := fun _ => m) hk hR hC hμ h1 h2 rng (fun _ => hm) hδ0 hδ1 halg hstable w (fun i => U i ω) (ht ω)
    (fun i => hcov i ω) (fun i => hbin i ω) s0 hs hp hreg
  have hreg' : ∀ᵐ ω ∂P, AIPW.Regular k SR SC μ κ (s ω 0).eta := Eventually.of_forall fun ω => by rw [e0]; exact hreg
  filter_upwards [AIPW.C98_estimates_converge (U := U) (s := fun n ω => s ω n) (ci := fun n ω => ci ω n) hk hU hbin (fun j => (hz j).mono_exponent AIPW.h48) (hy.mono_exponent AIPW.h48) hnd hb hθ hR hl hC hμ h1 h2
      (fun _ => hm) (Eventually.of_forall e1) hreg',
    AIPW.C98_intervals_converge (U := U) (s := fun n ω => s ω n) (ci := fun n ω => ci ω n) hk hU hbin hz hy hnd hb hθ hR hl hC hμ h1 h2 (fun _ => hm) halg (Eventually.of_forall e1) hreg'] with ω a1 a2
  exact ⟨s ω, ci ω, e0 ω, e1 ω, a1, a2⟩

/-! ## Non-vacuity -/

open AIPW in
/-- non-vacuity of `AIPW.C99_consistent`: the response `1 + x z` is not linear, the propensities are 1/2 and 1/3 -/
example {V : Type} (rng : Rng V ℝ) : ∃ θ v, Consistent (draws fourPoint) 1 (LinReg.demoCfg .clt) (AIPW.ops (idealRidge 1) idealLogistic) rng
    (fun i ω => fourUnit (fun x z => 1 + x * z) (coord i ω)) 3 (1 / 20) (init fourNew) θ v := by
  have hm : Measurable fun q : ℝ × ℝ => (fun x z => 1 + x * z) q.1 q.2 := by fun_prop
  have hV : Measurable fun ω => (fourUnit (fun x z => 1 + x * z) (coord 0 ω)).point 1 := (four_measurable hm).comp (measurable_coord 0)
  have hnd := four_nondegenerate fun x z => 1 + x * z
  have hnd1 := (four_notSeparable fun x z => 1 + x * z).nondegenerate
  have hbin0 : ∀ᵐ ω ∂draws fourPoint, ((fourUnit (fun x z => 1 + x * z) (coord 0 ω)).point 1).2.1 = 0 ∨ ((fourUnit (fun x z => 1 + x * z) (coord 0 ω)).point 1).2.1 = 1 :=
    Eventually.of_forall fun ω => four_binary (fun x z => 1 + x * z) _
  obtain ⟨b, hb⟩ := Nondegenerate.exists_leastSquares hnd (regressor_memLp hV.aemeasurable hbin0 fun j => four_z (fun x z => 1 + x * z) 2 j) (four_y (m := fun x z => 1 + x * z) hm 2)
  have hθ := logistic_correct hV hbin0 (fun j => (four_z (fun x z => 1 + x * z) 1 j).integrable le_rfl) hnd1 (four_propensity hm)
  exact ⟨_, _, AIPW.C99_consistent rng (SR := fun _ => True) (SC := fun _ => True) (by norm_num) (four_iid hm) (fun _ _ => rfl) (fun i ω => four_binary _ _)
    (fun j => four_z (fun x z => 1 + x * z) 8 j) (four_y hm 8) hnd hb hθ (idealRidge_isRidge (alpha := 1) (by norm_num)) (by norm_num) idealLogistic_isLogistic
    (by norm_num) (by norm_num) (by norm_num) (by norm_num) (by norm_num) (by norm_num) (Or.inl rfl) rfl (fun ω n => ⟨_, rfl⟩) rfl rfl four_regular⟩

namespace EndDemo

/-- a unit with covariates `c` and `c²`, exposed if `c` is not negative, with response `2 x + 3 c` -/
noncomputable def unit (c : ℝ) : Obs ℝ := ⟨[.flt c, .flt (c ^ 2)], .int (if c < 0 then 0 else 1), .flt (3 * c + 2 * (if c < 0 then 0 else 1))⟩

/-- arm `false` adjusts for `c`, arm `true` for `c²` -/
def coords (a : Bool) : List ℕ := if a then [1] else [0]

def armCfg (a : Bool) : SSConfig (Cell ℝ) ℝ := { LinReg.demoCfg .clt with transform := ExpData.coordMask ((coords a).map Int.ofNat) }

/-- what the arms see -/
def view (a : Bool) (u : Obs ℝ) : Obs ℝ := { u with z := ExpData.gather (coords a) u.z }

theorem shows (a : Bool) : Shows (armCfg a).transform 2 1 (view a) := by
  have := shows_coordMask 2 (coords a) (by cases a <;> simp [coords])
  cases a <;> exact this

noncomputable def covariate (a : Bool) (c : ℝ) : ℝ := if a then c ^ 2 else c

theorem view_point (a : Bool) (c : ℝ) : (view a (unit c)).point 1 = (fun _ => covariate a c, if c < 0 then 0 else 1, 3 * c + 2 * (if c < 0 then 0 else 1)) := by
  unfold Obs.point
  refine Prod.ext (funext fun j => ?_) (Prod.ext ?_ rfl)
  · rw [Subsingleton.elim j 0]
    cases a <;> rfl
  · show (((if c < 0 then 0 else 1 : ℤ)) : ℝ) = _
    split <;> simp

theorem measurable_view (a : Bool) : Measurable fun c : ℝ => (view a (unit c)).point 1 := by
  simp only [view_point]
  have h1 : Measurable fun c : ℝ => if c < 0 then (0 : ℝ) else 1 := Measurable.ite measurableSet_Iio measurable_const measurable_const
  have h2 : Measurable (covariate a) := by
    cases a
    · exact measurable_id
    · exact measurable_id.pow_const 2
  fun_prop

theorem iid (a : Bool) : Iid (draws (threePoint 1)) fun i ω => (view a (unit (coord i ω))).point 1 := iid_coord.comp (measurable_view a)

theorem regressor_view (a : Bool) (c : ℝ) (j : Fin (1 + 1)) : regressor ((view a (unit c)).point 1) j = if j = 0 then (if c < 0 then 0 else 1) else covariate a c := by
  rw [view_point]
  fin_cases j <;> rfl

theorem moments (a : Bool) : designMoments (draws (threePoint 1)) (fun ω => (view a (unit (coord 0 ω))).point 1) = !![3 / 4, 1 / 4; 1 / 4, 1 / 2] := by
  ext i j
  have h := LinReg.demo_integral (fun c => regressor ((view a (unit c)).point 1) i * regressor ((view a (unit c)).point 1) j)
    (((LinReg.measurable_regressor i).comp (measurable_view a)).mul ((LinReg.measurable_regressor j).comp (measurable_view a)))
  show ∫ ω, _ ∂_ = _
  rw [h]
  simp only [regressor_view]
  cases a <;> fin_cases i <;> fin_cases j <;> norm_num [covariate]

theorem inverse (a : Bool) : LinReg.demoInv * designMoments (draws (threePoint 1)) (fun ω => (view a (unit (coord 0 ω))).point 1) = 1 := by
  rw [moments, ← LinReg.demo_moments]
  exact LinReg.demo_inv

/-- the regression coefficients -/
noncomputable def coeff (a : Bool) : Fin (1 + 1) → ℝ := if a then ![16 / 5, -3 / 5] else ![2, 3]

theorem yv_view (a : Bool) (c : ℝ) : (view a (unit c)).yv = 3 * c + 2 * (if c < 0 then 0 else 1) := rfl

theorem point_y (a : Bool) (c : ℝ) : ((view a (unit c)).point 1).2.2 = 3 * c + 2 * (if c < 0 then 0 else 1) := rfl

theorem leastSquares (a : Bool) : LeastSquares (draws (threePoint 1)) (fun ω => (view a (unit (coord 0 ω))).point 1) (coeff a) := by
  intro j
  have hm : ∀ j, Measurable fun c => regressor ((view a (unit c)).point 1) j := fun j => (LinReg.measurable_regressor j).comp (measurable_view a)
  have hyv : Measurable fun c => ((view a (unit c)).point 1).2.2 := (measurable_snd.comp measurable_snd).comp (measurable_view a)
  rw [LinReg.demo_integral (fun c => regressor ((view a (unit c)).point 1) j * (((view a (unit c)).point 1).2.2 - ∑ l, coeff a l * regressor ((view a (unit c)).point 1) l)) (by fun_prop)]
  simp only [regressor_view, Fin.sum_univ_succ, Fin.sum_univ_zero, point_y]
  cases a <;> fin_cases j <;> norm_num [covariate, coeff]

theorem score_view (a : Bool) (c : ℝ) : regressionScore LinReg.demoInv ((view a (unit c)).point 1) =
    (8 / 5 * (if c < 0 then 0 else 1) - 4 / 5 * covariate a c) * (3 * c + 2 * (if c < 0 then 0 else 1)) := by
  unfold regressionScore
  rw [Fin.sum_univ_succ, Fin.sum_univ_succ, Finset.univ_eq_empty, Finset.sum_empty, point_y, regressor_view, regressor_view]
  simp only [LinReg.demoInv, Matrix.of_apply, Matrix.cons_val_zero, Matrix.cons_val_succ, if_true, if_neg (Fin.succ_ne_zero _)]
  ring

/-- the true values -/
noncomputable def value (a : Bool) : ℝ := if a then 8 / 25 else 164 / 25

theorem variance_eq (a : Bool) : Var[fun ω => regressionScore LinReg.demoInv ((view a (unit (coord 0 ω))).point 1); draws (threePoint 1)] = value a := by
  have hm : Measurable fun c => regressionScore LinReg.demoInv ((view a (unit c)).point 1) := (LinReg.measurable_score _).comp (measurable_view a)
  have hm0 : Measurable fun ω => regressionScore LinReg.demoInv ((view a (unit (coord 0 ω))).point 1) := hm.comp (measurable_coord 0)
  rw [variance_eq_integral hm0.aemeasurable, LinReg.demo_integral _ hm,
    LinReg.demo_integral (fun c => (regressionScore LinReg.demoInv ((view a (unit c)).point 1) - _) ^ 2) (by fun_prop)]
  simp only [score_view]
  cases a <;> norm_num [covariate, value]

theorem bounds (a : Bool) (c : ℝ) (hc : c ∈ Set.Icc (-1 : ℝ) 1) (j : Fin (1 + 1)) : |regressor ((view a (unit c)).point 1) j| ≤ 1 ∧ |(view a (unit c)).yv| ≤ 5 := by
  have h3 : |covariate a c| ≤ 1 := by
    obtain ⟨h1, h2⟩ := hc
    rw [abs_le]
    cases a
    · exact ⟨h1, h2⟩
    · constructor <;> simp only [covariate, if_true] <;> nlinarith
  rw [regressor_view, yv_view]
  obtain ⟨h1, h2⟩ := hc
  rw [abs_le] at h3
  refine ⟨?_, ?_⟩ <;> rw [abs_le] <;> split_ifs <;> constructor <;> linarith

/-- the arms are consistent -/
theorem consistent {V : Type} (rng : Rng V ℝ) (a : Bool) : Consistent (draws (threePoint 1)) 1 (armCfg a) (LinReg.ops (k := 1)) rng (fun i ω => view a (unit (coord i ω))) 3 (1 / 20)
    (init (LinReg.new (1 / 10))) (coeff a 0) (value a) := by
  rw [← variance_eq]
  have hreg : ∀ j, Measurable fun c => regressor ((view a (unit c)).point 1) j := fun j => (LinReg.measurable_regressor j).comp (measurable_view a)
  have hyv : Measurable fun c => (view a (unit c)).yv := (measurable_snd.comp measurable_snd).comp (measurable_view a)
  refine LinReg.C99_consistent rng (iid a) (fun i ω => (shows a).covariates _ rfl) (fun j => ?_) (fun j => ?_) (inverse a) (leastSquares a) (by norm_num) (by norm_num) (by norm_num)
    (Or.inl rfl) rfl (fun ω n => (shows a).blocks (u := fun i => unit (coord i ω)) (fun i => rfl) 3 n) rfl rfl (by show (0 : ℝ) < 1 / 10; norm_num)
  · exact LinReg.demo_memLp _ (hreg j) (C := 1) (fun c hc => abs_le.1 (bounds a c hc j).1) 2
  · exact LinReg.demo_memLp (fun c => regressor ((view a (unit c)).point 1) j * (view a (unit c)).yv) ((hreg j).mul hyv) (C := 5) (fun c hc => abs_le.1 (by
      rw [abs_mul]
      have := mul_le_mul (bounds a c hc j).1 (bounds a c hc j).2 (abs_nonneg _) zero_le_one
      linarith)) 4

/-- both arms, error probability 1/10, tolerance 1, no sample limit, 3 units per round -/
noncomputable def banditCfg : BanditCfg Bool ℝ := ⟨[false, true], .fin (1 / 10), .fin 1, none, some .pinf, 3⟩

noncomputable def env (V : Type) : BanditEnv (Tape V) (Cell ℝ) where
  generate := Tape.generate 2
  choice := fun _ h w => (⟨0, h⟩, w)
  choice2 := fun _ h w => (⟨(⟨0, by omega⟩, ⟨1, by omega⟩), by simp⟩, w)

/-- costs -/
def cost (a : Bool) : ℝ := if a then 2 else 1

noncomputable def heap (a : Bool) : Bool × ArmState (LinReg 1 ℝ) (Cell ℝ) ℝ := (a, init (LinReg.new (1 / 10)))

/-- non-vacuity of `C99_ends`, `C99_late_answers` and `LinReg.C99_consistent`: two arms adjust for different covariates; without a sample limit the run ends almost surely -/
example {V : Type} (rng : Rng V ℝ) (v0 : V) :
    (∀ᵐ ω ∂draws (threePoint 1), Ends (Bandit.uniformRun (env V) (Bandit.ssFamily armCfg (fun _ => LinReg.ops) (Tape.rng rng) cost) banditCfg none)
      (heap, ⟨fun i => unit (coord i ω), 0, v0⟩)) ∧
    ∀ᵐ ω ∂draws (threePoint 1), ∃ N, ∀ (tol lim : Fl ℝ) (fuel : ℕ) (r : BanditData Bool ℝ) s',
      Bandit.uniformRun (env V) (Bandit.ssFamily armCfg (fun _ => LinReg.ops) (Tape.rng rng) cost) { banditCfg with errorTol := tol, sampleLimit := some lim } none fuel
        (heap, ⟨fun i => unit (coord i ω), 0, v0⟩) = (.ok (some r), s') → N ≤ r.cum.length → r.best = [true] := by
  have hlev : Bandit.level banditCfg = .fin (1 / 20) := by
    norm_num [Bandit.level, banditCfg, Fl.div]
  have hbest : BestBy banditCfg.arms (fun a => cost a * value a) 5 true := by
    refine ⟨by simp [banditCfg], fun a _ ha => ?_⟩
    cases a
    · norm_num [cost, value]
    · exact absurd rfl ha
  have h1 := Bandit.C99_ends (env := env V) (cost := cost) (heap := heap) (U := fun i (ω : ℕ → ℝ) => unit (coord i ω)) rfl (by simp [banditCfg]) (by simp [banditCfg]) hlev rfl rfl zero_le_one (fun _ _ => rfl)
    (fun _ => rfl) (fun a _ => shows a) (fun a _ => consistent rng a) hbest (by norm_num) v0
  exact ⟨h1.mono fun ω h => h.2, Bandit.C99_late_answers (env := env V) (cost := cost) (heap := heap) (U := fun i (ω : ℕ → ℝ) => unit (coord i ω)) rfl (by simp [banditCfg]) (by simp [banditCfg]) hlev
    (fun _ _ => rfl) (fun _ => rfl) (fun a _ => shows a) (fun a _ => consistent rng a) hbest (by norm_num) v0⟩

end EndDemo
end Verif
