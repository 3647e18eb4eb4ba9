import Verif.Lemmas.FrontDoorLimit2
import Verif.Props.AipwConsistent
import Verif.Spec.EndToEnd

/-!
# Property C102, general part: where the estimates of arms with a front-door parameter converge to
-/

set_option linter.unusedSectionVars false
set_option linter.unusedSimpArgs false

namespace Verif
open MeasureTheory ProbabilityTheory Filter Topology Arm Param
open scoped ENNReal

namespace FrontDoor

section
variable {Ω M W : Type} [MeasurableSpace Ω] {P : Measure Ω} [IsProbabilityMeasure P] {S : Finset ℤ} {R : Predictor M ℝ} {SR : M → Prop} {lam κ ratio : ℝ} {μ : ℤ}
  {cfg : SSConfig (Cell ℝ) ℝ} {ridge0 : M} {rng : Rng W ℝ} {size : ℕ → ℕ} {w : ℕ → W} {U : ℕ → Ω → Obs ℝ} {b : Fin 3 → ℝ}
  {s : ℕ → Ω → ArmState (FrontDoor M ℝ) (Cell ℝ) ℝ} {ci : ℕ → Ω → Fl ℝ × Fl ℝ}

theorem envelope_memLp {p : ℝ≥0∞} (hy : MemLp (fun ω => (U 0 ω).yv) p P) : MemLp (fun ω => 1 + |((U 0 ω).point 1).2.2|) p P :=
  (memLp_const (1 : ℝ)).add hy.abs

theorem point_memLp (hU : Iid P fun i ω => (U i ω).point 1) (hfin : ∀ i ω, (U i ω).FiniteZ S) {p : ℝ≥0∞} (hy : MemLp (fun ω => (U 0 ω).yv) p P) (q : ℝ) (c : ℝ → ℝ → ℝ) :
    MemLp (fun ω => frontDoorPoint κ q (planeValue b) (snap S c) S ((U 0 ω).point 1)) p P := by
  have hVm : AEMeasurable (fun ω => (U 0 ω).point 1) P := (hU.ident 0).aemeasurable_fst
  refine MemLp.of_le_mul (envelope_memLp hy) ((measurable_point q b c).comp_aemeasurable hVm).aestronglyMeasurable (Eventually.of_forall fun ω => ?_)
    (c := ∑ a ∈ S, ((|frontDoorPoint κ q (planeValue b) (snap S c) S (cellPoint a 0 0)| + |frontDoorPoint κ q (planeValue b) (snap S c) S (cellPoint a 0 1)|) +
      (|frontDoorPoint κ q (planeValue b) (snap S c) S (cellPoint a 1 0)| + |frontDoorPoint κ q (planeValue b) (snap S c) S (cellPoint a 1 1)|)))
  rw [Real.norm_eq_abs, Real.norm_eq_abs, abs_of_nonneg (a := 1 + _) (by positivity)]
  exact affine_bound (fun a x y => point_affine q (planeValue b) (snap S c) a x y) (listed (hfin 0 ω))

/-- **C102**: a sample-splitting arm with a front-door parameter, whose response model is a ridge regression with intercept and whose conditional
probabilities are tabulated, is updated again and again with blocks of at least two units from a stream of independent, identically distributed units with
one covariate from a finite set. If all conditional probabilities are within the bounds of the table, its estimates of mean and variance converge
almost surely to mean and variance of the score of `parameters.py` with the exact nuisance values. -/
theorem C102_estimates_converge (hU : Iid P fun i ω => (U i ω).point 1) (hfin : ∀ i ω, (U i ω).FiniteZ S) (hy : MemLp (fun ω => (U 0 ω).yv) 2 P)
    (hnd : Nondegenerate P fun ω => affineRegressor ((U 0 ω).point 1)) (hb : LeastSquaresIntercept P (fun ω => (U 0 ω).point 1) b)
    (hR : R.IsRidgeIntercept SR lam) (hl : 0 ≤ lam) (hμ : 1 ≤ μ) (h1 : 0 < κ) (h2 : κ ≤ 1 / 2) (hr : 1 ≤ ratio)
    (hp : ∀ x : ℤ, x = 0 ∨ x = 1 → ∀ a ∈ S, 1 / (S.card : ℝ) / ratio < condProb P (fun ω => (U 0 ω).point 1) x a ∧
      condProb P (fun ω => (U 0 ω).point 1) x a < 1 - 1 / (S.card : ℝ) / ratio) (hsize : ∀ n, 2 ≤ size n) {δ : Fl ℝ}
    (h : ∀ᵐ ω ∂P, Streams 1 cfg (ops R ridge0) rng (fun i => U i ω) size δ (fun n => s n ω) w (fun n => ci n ω))
    (h0 : ∀ᵐ ω ∂P, Regular S SR μ κ ratio (s 0 ω).eta) :
    ∀ᵐ ω ∂P, EstimatesConverge (fun n => s n ω) (∫ ω, frontDoorLimit P (fun ω => (U 0 ω).point 1) κ b S ((U 0 ω).point 1) ∂P)
      Var[fun ω => frontDoorLimit P (fun ω => (U 0 ω).point 1) κ b S ((U 0 ω).point 1); P] := by
  have e : (fun ω => frontDoorLimit P (fun ω => (U 0 ω).point 1) κ b S ((U 0 ω).point 1)) = fun ω => frontDoorPoint κ (clamp κ (P.real {ω | ((U 0 ω).point 1).2.1 = 1}))
      (planeValue b) (snap S (condProb P fun ω => (U 0 ω).point 1)) S ((U 0 ω).point 1) := by
    funext ω
    rw [point_snap _ _ _ (listed (hfin 0 ω))]
    rfl
  rw [e]
  exact envelope_estimates (V := fun i ω => (U i ω).point 1) (U := U) (s := s) (ci := ci) hU hsize (measurable_point _ b _) (point_memLp hU hfin hy _ _)
    (g := fun p => 1 + |p.2.2|) (by fun_prop) (fun t => by positivity) (envelope_memLp hy) h (repeatable R ridge0)
    (scores_approach hU hfin hy hnd hb hR hl hμ h1 h2 hr hp hsize h h0)

/-- **C102**: with responses that have a fourth moment, the intervals returned by `CLT` and `CHI2` arms shrink to the variance of the same score. -/
theorem C102_intervals_converge (hU : Iid P fun i ω => (U i ω).point 1) (hfin : ∀ i ω, (U i ω).FiniteZ S) (hy : MemLp (fun ω => (U 0 ω).yv) 4 P)
    (hnd : Nondegenerate P fun ω => affineRegressor ((U 0 ω).point 1)) (hb : LeastSquaresIntercept P (fun ω => (U 0 ω).point 1) b)
    (hR : R.IsRidgeIntercept SR lam) (hl : 0 ≤ lam) (hμ : 1 ≤ μ) (h1 : 0 < κ) (h2 : κ ≤ 1 / 2) (hr : 1 ≤ ratio)
    (hp : ∀ x : ℤ, x = 0 ∨ x = 1 → ∀ a ∈ S, 1 / (S.card : ℝ) / ratio < condProb P (fun ω => (U 0 ω).point 1) x a ∧
      condProb P (fun ω => (U 0 ω).point 1) x a < 1 - 1 / (S.card : ℝ) / ratio) (hsize : ∀ n, 2 ≤ size n) {δ : ℝ} (halg : cfg.alg = .clt ∨ cfg.alg = .chi2)
    (h : ∀ᵐ ω ∂P, Streams 1 cfg (ops R ridge0) rng (fun i => U i ω) size (.fin δ) (fun n => s n ω) w (fun n => ci n ω))
    (h0 : ∀ᵐ ω ∂P, Regular S SR μ κ ratio (s 0 ω).eta) :
    ∀ᵐ ω ∂P, IntervalsConverge (fun n => ci n ω) Var[fun ω => frontDoorLimit P (fun ω => (U 0 ω).point 1) κ b S ((U 0 ω).point 1); P] := by
  have e : (fun ω => frontDoorLimit P (fun ω => (U 0 ω).point 1) κ b S ((U 0 ω).point 1)) = fun ω => frontDoorPoint κ (clamp κ (P.real {ω | ((U 0 ω).point 1).2.1 = 1}))
      (planeValue b) (snap S (condProb P fun ω => (U 0 ω).point 1)) S ((U 0 ω).point 1) := by
    funext ω
    rw [point_snap _ _ _ (listed (hfin 0 ω))]
    rfl
  rw [e]
  exact envelope_intervals (V := fun i ω => (U i ω).point 1) (U := U) (s := s) (ci := ci) hU hsize (measurable_point _ b _) (point_memLp hU hfin hy _ _)
    (g := fun p => 1 + |p.2.2|) (by fun_prop) (fun t => by positivity) (envelope_memLp hy) halg h (repeatable R ridge0)
    (scores_approach hU hfin (hy.mono_exponent AIPW.h24) hnd hb hR hl hμ h1 h2 hr hp hsize h h0)

/-- **C102**: no update of a `CLT` or `CHI2` arm with a front-door parameter fails on such units, whatever the states of the random generator. -/
theorem C102_updates_succeed (hR : R.IsRidgeIntercept SR lam) (hμ : 1 ≤ μ) (hκ1 : 0 < κ) (hκ2 : κ ≤ 1 / 2) (hr : ratio ≠ 0)
    (rng : Rng W ℝ) (hsize : ∀ n, 2 ≤ size n) {δ : ℝ} (h0 : 0 < δ) (h1 : δ < 1) (halg : cfg.alg = .clt ∨ cfg.alg = .chi2)
    (hstable : cfg.stable = true) (w : ℕ → W) (u : ℕ → Obs ℝ)
    (ht : ∀ n, ∃ d, cfg.transform d = .ok (Obs.dataset 1 ((List.range (size n)).map fun i => u (blockStart size n + i))))
    (hfin : ∀ i, (u i).FiniteZ S) (s0 : ArmState (FrontDoor M ℝ) (Cell ℝ) ℝ) (hs : s0.split = none)
    (hp : s0.numPulled = 0) (hreg : Regular S SR μ κ ratio s0.eta) :
    ∃ s ci, s 0 = s0 ∧ Streams 1 cfg (ops R ridge0) rng u size (.fin δ) s w ci ∧
      ∀ n d, cfg.transform d = .ok (Obs.dataset 1 ((List.range (size n)).map fun i => u (blockStart size n + i))) →
        ssUpdate cfg (ops R ridge0) realLib rng d (.fin δ) (s n, w n) = (.ok (ci n), s (n + 1), (rng.perm (size n) (w n)).2) := by
  obtain ⟨s, ci, a, b⟩ := stream_runs_rel (Rel := Alike) Alike.refl (fun _ _ _ => Alike.trans) (ops := ops R ridge0) (k := 1) rng hsize h0 h1 halg hstable
    (Good := Regular S SR μ κ ratio) (Fine := Obs.FiniteZ S) (fun e e' h h' => h.alike h')
    (fun e he us hne hf => by
      obtain ⟨e', a1, a2, -⟩ := fit_regular hR hμ hr hκ2 he hne hf
      refine ⟨e', e'.hasBeenFit, a1, rfl, a2, fun hfit e2 he2 vs hvs _ => ?_⟩
      have hfit2 : e2.hasBeenFit = true := by rw [he2.rest]; exact hfit
      obtain ⟨xs, e3, h3, h4⟩ := score_runs hκ1 hκ2 (a2.alike he2) hfit2 (R := R) hvs
      refine ⟨xs, e3, h3, h4, ?_⟩
      have := score_alike R ridge0 e2 (Obs.dataset 1 vs)
      rw [show (ops R ridge0).score e2 (Obs.dataset 1 vs) = _ from h3] at this
      exact this) w u ht (fun i => (hfin i).length) hfin s0 hs hp hreg
  exact ⟨s, ci, a, b, fun n d hd => stream_step b n hd rng (w n) rfl⟩

/-- **C102**: such arms are consistent for the mean of the score of `parameters.py` with the exact nuisance values. -/
theorem C102_consistent (rng : Rng W ℝ) (hU : Iid P fun i ω => (U i ω).point 1) (hfin : ∀ i ω, (U i ω).FiniteZ S) (hy : MemLp (fun ω => (U 0 ω).yv) 4 P)
    (hnd : Nondegenerate P fun ω => affineRegressor ((U 0 ω).point 1)) (hb : LeastSquaresIntercept P (fun ω => (U 0 ω).point 1) b)
    (hR : R.IsRidgeIntercept SR lam) (hl : 0 ≤ lam) (hμ : 1 ≤ μ) (h1 : 0 < κ) (h2 : κ ≤ 1 / 2) (hr : 1 ≤ ratio)
    (hp : ∀ x : ℤ, x = 0 ∨ x = 1 → ∀ a ∈ S, 1 / (S.card : ℝ) / ratio < condProb P (fun ω => (U 0 ω).point 1) x a ∧
      condProb P (fun ω => (U 0 ω).point 1) x a < 1 - 1 / (S.card : ℝ) / ratio) {m : ℕ} (hm : 2 ≤ m) {δ : ℝ} (hδ0 : 0 < δ) (hδ1 : δ < 1)
    (halg : cfg.alg = .clt ∨ cfg.alg = .chi2) (hstable : cfg.stable = true)
    (ht : ∀ ω n, ∃ d, cfg.transform d = .ok (Obs.dataset 1 ((List.range m).map fun i => U (blockStart (fun _ => m) n + i) ω)))
    {s0 : ArmState (FrontDoor M ℝ) (Cell ℝ) ℝ} (hs : s0.split = none) (hnp : s0.numPulled = 0) (hreg : Regular S SR μ κ ratio s0.eta) :
    Consistent P 1 cfg (ops R ridge0) rng U m δ s0 (∫ ω, frontDoorLimit P (fun ω => (U 0 ω).point 1) κ b S ((U 0 ω).point 1) ∂P)
      Var[fun ω => frontDoorLimit P (fun ω => (U 0 ω).point 1) κ b S ((U 0 ω).point 1); P] := by
  intro w
  have hr0 : ratio ≠ 0 := by intro h; rw [h] at hr; linarith
  choose s ci e0 e1 _ using fun ω : Ω => C102_updates_succeed (cfg := cfg) (size := fun _ => m) (ridge0 := ridge0) hR hμ h1 h2 hr0 rng (fun _ => hm) hδ0 hδ1 halg hstable w
    (fun i => U i ω) (ht ω) (fun i => hfin i ω) s0 hs hnp hreg
  have hreg' : ∀ᵐ ω ∂P, Regular S SR μ κ ratio (s ω 0).eta := Eventually.of_forall fun ω => by rw [e0]; exact hreg
  filter_upwards [C102_estimates_converge (U := U) (s := fun n ω => s ω n) (ci := fun n ω => ci ω n) hU hfin (hy.mono_exponent AIPW.h24) hnd hb hR hl hμ h1 h2 hr hp
      (fun _ => hm) (Eventually.of_forall e1) hreg',
    C102_intervals_converge (U := U) (s := fun n ω => s ω n) (ci := fun n ω => ci ω n) hU hfin hy hnd hb hR hl hμ h1 h2 hr hp (fun _ => hm) halg (Eventually.of_forall e1) hreg'] with ω a1 a2
  exact ⟨s ω, ci ω, e0 ω, e1 ω, a1, a2⟩

end

end FrontDoor
end Verif
