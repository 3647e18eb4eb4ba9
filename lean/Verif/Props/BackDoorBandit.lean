import Verif.Lemmas.Simulate
import Verif.Props.EndToEnd4
import Verif.Props.ExampleScm4
import Verif.Spec.BackDoorBandit

/-!
# Property C105: the bandits on the data of the back-door example
-/

set_option linter.unusedSectionVars false
set_option linter.unusedSimpArgs false

namespace Verif
open MeasureTheory ProbabilityTheory Filter Topology Arm Param Section5

/-! ## Arms with different representations of their nuisance parameter -/

section
variable {Ω E F V : Type} [MeasurableSpace Ω] {P : Measure Ω} {k : ℕ} {cfg : SSConfig (Cell ℝ) ℝ} {emb : E → F} {ops : EtaOps E (Cell ℝ) ℝ} {ops' : EtaOps F (Cell ℝ) ℝ} {rng : Rng V ℝ}
  {U : ℕ → Ω → Obs ℝ} {m : ℕ} {δ : ℝ} {s0 : ArmState E (Cell ℝ) ℝ} {θ v : ℝ}

theorem Arm.Consistent.map (h : EtaHom emb ops ops') (hc : Consistent P k cfg ops rng U m δ s0 θ v) : Consistent P k cfg ops' rng U m δ (mapEta emb s0) θ v := by
  intro w
  filter_upwards [hc w] with ω ⟨s, ci, h0, h1, h2, h3⟩
  refine ⟨fun n => mapEta emb (s n), ci, congrArg (mapEta emb) h0, ⟨h1.fresh, h1.stable, h1.covariates, fun n => ?_⟩, h2, h3⟩
  obtain ⟨d, w', e1, e2⟩ := h1.step n
  obtain ⟨e3, e4, e5⟩ := sim_ssUpdate (Q := Eq) (rng := rng) (rng' := rng) h (by rintro n w _ rfl; exact ⟨rfl, rfl⟩) cfg realLib d (.fin δ) (s n, w n) (mapEta emb (s n), w n) ⟨rfl, rfl⟩
  rw [e2] at e3 e4 e5
  exact ⟨d, w', e1, Prod.ext e3 (Prod.ext e4 e5.symm)⟩

theorem Arm.ConsistentOnParts.map (h : EtaHom emb ops ops') (hc : ConsistentOnParts P k cfg ops rng U m δ s0 θ v) : ConsistentOnParts P k cfg ops' rng U m δ (mapEta emb s0) θ v :=
  fun σ hσ => (hc σ hσ).map h

end

theorem etaHom_inl {E F β : Type} (o : EtaOps E β ℝ) (o' : EtaOps F β ℝ) : EtaHom Sum.inl o (sumEtaOps o o') := ⟨fun _ _ => rfl, fun _ => rfl, fun _ _ => rfl, fun _ => rfl⟩

theorem etaHom_inr {E F β : Type} (o : EtaOps E β ℝ) (o' : EtaOps F β ℝ) : EtaHom Sum.inr o' (sumEtaOps o o') := ⟨fun _ _ => rfl, fun _ => rfl, fun _ _ => rfl, fun _ => rfl⟩

namespace Example
variable {V : Type}

/-! ## The data of the example as a tape -/

theorem back_block {a b c p beta alpha : ℝ} {m : ℕ} (hm : 0 < m) {Ω : Type} (U G : ℕ → Ω → ℝ) (ω : Ω) (n : ℕ) :
    (List.range m).map (fun i => backUnit p beta alpha (followedBy [a, b, c] (fun i => U i ω) (3 + n * (m + m) + i), followedBy [a, b, c] (fun i => U i ω) (3 + n * (m + m) + m + i), G (n * m + i) ω)) =
      (List.range m).map fun i => backUnit p beta alpha (numbersOf U G m (n * m + i) ω) := by
  refine List.map_congr_left fun i hi => ?_
  have hi' := List.mem_range.1 hi
  obtain ⟨d1, d2⟩ := div_pos' (a := n) hm hi'
  have f1 : followedBy [a, b, c] (fun i => U i ω) (3 + n * (m + m) + i) = U (firstPos m (n * m + i)) ω := by
    have : firstPos m (n * m + i) = 3 + n * (m + m) + i - 3 := by
      rw [firstPos, d1, d2, Nat.mul_comm 2 n, Nat.mul_assoc, Nat.two_mul]
      omega
    rw [this, followedBy, List.getD_eq_default _ _ (by simp; omega)]
    rfl
  have f2 : followedBy [a, b, c] (fun i => U i ω) (3 + n * (m + m) + m + i) = U (secondPos m (n * m + i)) ω := by
    have : secondPos m (n * m + i) = 3 + n * (m + m) + m + i - 3 := by
      rw [secondPos, d1, d2, Nat.add_mul, Nat.mul_comm 2 n, Nat.mul_assoc, Nat.two_mul]
      omega
    rw [this, followedBy, List.getD_eq_default _ _ (by simp; omega)]
    rfl
  unfold numbersOf
  rw [← f1, ← f2]

/-- the tape shows the units that the random numbers lead to -/
def OnTape (a b c : ℝ) (m : ℕ) (u g : ℕ → ℝ) (units : ℕ → Obs ℝ) (t : Tape V) (w : Numbers V) : Prop :=
  ∃ n, t.units = units ∧ t.pos = n * m ∧ w = ⟨followedBy [a, b, c] u, g, 3 + n * (m + m), n * m, t.seed⟩

open Bandit in
theorem sameBandit {Ω I E : Type} {a b c p beta alpha : ℝ} (hp : 0 ≤ p ∧ p ≤ 1) (ha : 0 ≤ 1 / 2 + alpha ∧ 1 / 2 + alpha ≤ 1) {S : SCM String ℝ (Numbers V)}
    (hS : backDoorScm Numbers.gen p beta alpha = .ok S) {m : ℕ} (hm : 0 < m) (U G : ℕ → Ω → ℝ) (ω : Ω) {env : BanditEnv (Tape V) (Cell ℝ)} (hgen : env.generate = Tape.generate 1)
    (choice : (n : ℕ) → 0 < n → Numbers V → Fin n × Numbers V) (choice2 : (n : ℕ) → 2 ≤ n → Numbers V → { p : Fin n × Fin n // p.1 ≠ p.2 } × Numbers V)
    (acfg : I → SSConfig (Cell ℝ) ℝ) (eops : I → EtaOps E (Cell ℝ) ℝ) (rng : Verif.Rng V ℝ) (cost : I → ℝ) :
    SameBandit (OnTape a b c m (fun i => U i ω) (fun i => G i ω) fun i => backUnit p beta alpha (numbersOf U G m i ω)) env ⟨generate S, choice, choice2⟩
      (ssFamily acfg eops (Tape.rng rng) cost) (ssFamily acfg eops (Numbers.rng rng) cost) m where
  generate := by
    rintro t _ ⟨n, h1, h2, rfl⟩
    simp only [hgen, generate_back hp ha hS, Tape.generate, h1, h2]
    refine ⟨congrArg (fun l => Except.ok (Obs.dataset 1 l)) (back_block hm U G ω n), n + 1, rfl, ?_, ?_⟩
    · show n * m + m = (n + 1) * m
      rw [Nat.add_mul]; omega
    · simp only [Numbers.mk.injEq, true_and, and_true]
      refine ⟨?_, ?_⟩
      · rw [Nat.add_mul]; omega
      · rw [Nat.add_mul]; omega
  update := by
    intro d δ
    rintro ⟨⟨j, s⟩, t⟩ ⟨⟨j', s'⟩, w⟩ ⟨h1, h2⟩
    obtain ⟨rfl, rfl⟩ := Prod.mk.inj h1
    have := sim_ssUpdate (emb := fun e : E => e) (ops := eops j') (ops' := eops j') (rng := Tape.rng rng) (rng' := Numbers.rng rng)
      (Q := OnTape a b c m (fun i => U i ω) (fun i => G i ω) fun i => backUnit p beta alpha (numbersOf U G m i ω)) ⟨fun _ _ => rfl, fun _ => rfl, fun _ _ => rfl, fun _ => rfl⟩ (by
        rintro n t _ ⟨k, h1, h2, rfl⟩
        exact ⟨rfl, k, h1, h2, rfl⟩) (acfg j') realLib d δ (s', t) (s', w) ⟨rfl, h2⟩
    exact ⟨this.1, Prod.ext rfl this.2.1, this.2.2⟩
  ci := rfl
  varEst := rfl
  cost := rfl

theorem back_parameters {a b c : ℝ} (ha : a ∈ Set.Ico (0 : ℝ) 1) (hc : c ∈ Set.Ico (0 : ℝ) 1) {u g : ℕ → ℝ} {v0 : V} {B : BackDoorReturn (Numbers V)} {w : Numbers V}
    (h : backDoor Numbers.gen (Numbers.start [a, b, c] u g v0) = (.ok B, w)) :
    B.stats.muZ = 1 / 5 + 3 / 5 * a ∧ B.beta = 10 * (-(3 / 10) + 3 / 5 * b) ∧ B.alpha = -(3 / 10) + 3 / 5 * c := by
  have hv := valid_of_draws ha hc
  obtain ⟨S, hS, -⟩ := C65_backdoor_sampler (Numbers.gen (V := V)) (1 / 5 + 3 / 5 * a) (10 * (-(3 / 10) + 3 / 5 * b)) (-(3 / 10) + 3 / 5 * c) hv.le.1 hv.le.2
  rw [backDoor_start, hS] at h
  obtain ⟨e, -⟩ := Prod.mk.inj h
  obtain rfl := Except.ok.inj e
  exact ⟨rfl, rfl, rfl⟩

/-! ## The arms -/

section
variable {Ω : Type} [MeasurableSpace Ω] {P : Measure Ω} [IsProbabilityMeasure P] {U G : ℕ → Ω → ℝ} {a b c : ℝ} {M Q : Type} {R : Predictor M ℝ} {C : Predictor Q ℝ} {SR : M → Prop} {SC : Q → Prop}
  {lam κ : ℝ} {μ : ℤ}

theorem back_consistent {cfg : SSConfig (Cell ℝ) ℝ} {m : ℕ} {δ : ℝ} (hN : RandomNumbers P U G) (ha : a ∈ Set.Ico (0 : ℝ) 1) (hc : c ∈ Set.Ico (0 : ℝ) 1) (rng : Verif.Rng V ℝ) (hm : 2 ≤ m)
    (h0 : 0 < δ) (h1 : δ < 1) (hR : R.IsRidge SR lam) (hlam : 0 < lam) (hC : C.IsLogistic SC) (hμ : 1 ≤ μ) (hκ : 1 / 10 ^ 15 ≤ κ) (hκ' : κ ≤ 1 / 5)
    {s0 : ArmState (LinReg 1 ℝ ⊕ AIPW M Q ℝ) (Cell ℝ) ℝ} (hs : BackDoorArm SR SC μ κ cfg s0) :
    ConsistentOnParts P 1 cfg (sumEtaOps LinReg.ops (AIPW.ops R C)) rng
      (fun k ω => backUnit (1 / 5 + 3 / 5 * a) (10 * (-(3 / 10) + 3 / 5 * b)) (-(3 / 10) + 3 / 5 * c) (numbersOf U G m k ω)) m δ s0 10
      (armVariance (1 / 5 + 3 / 5 * a) (10 * (-(3 / 10) + 3 / 5 * b)) (-(3 / 10) + 3 / 5 * c) s0.eta) := by
  have hv := valid_of_draws ha hc
  have hm0 : 0 < m := by omega
  have hT := numbersOf_measurable hN m 0
  have hL := numbersOf_law hN hm0 0
  obtain ⟨halg, hstable, ht, hs1, hs2, hs3⟩ := hs
  obtain ⟨ci, eta, ate, ve, np, split, dl⟩ := s0
  rcases eta with e | e
  · have := LinReg.C100_consistent (k := 1) (cfg := cfg) rng
      (U := fun k ω => backUnit (1 / 5 + 3 / 5 * a) (10 * (-(3 / 10) + 3 / 5 * b)) (-(3 / 10) + 3 / 5 * c) (numbersOf U G m k ω)) (s0 := ⟨ci, e, ate, ve, np, split, dl⟩)
      ((numbersOf_iid hN hm0).comp (unit_measurable _ _ _)) (fun _ _ => rfl) (fun j => back_memLp_regressor hT hL hv j 2)
      (fun j => back_memLp_prod hT hL hv j 4 (by norm_num)) (back_inverse hT hL hv) (back_leastSquares hT hL hv) hm h0 h1 halg hstable
      (fun σ ω => ⟨_, by rw [ht]; rfl⟩) hs1 hs2 hs3
    rw [back_variance hT hL hv] at this
    exact Arm.ConsistentOnParts.map (etaHom_inl _ _) this
  · have := AIPW.C100_consistent (k := 1) (cfg := cfg) rng
      (U := fun k ω => backUnit (1 / 5 + 3 / 5 * a) (10 * (-(3 / 10) + 3 / 5 * b)) (-(3 / 10) + 3 / 5 * c) (numbersOf U G m k ω)) (s0 := ⟨ci, e, ate, ve, np, split, dl⟩) one_pos
      ((numbersOf_iid hN hm0).comp (unit_measurable _ _ _)) (fun _ _ => rfl) (fun i ω => back_binary hT hL hv _) (fun j => back_memLp_z hT hL hv j 8)
      (back_memLp_y hT hL hv 8 (by norm_num)) (back_nondegenerate hT hL hv) (back_leastSquares hT hL hv) (back_logistic hT hL hv) hR hlam hC hμ hκ (by linarith) hm h0 h1 halg hstable
      (fun σ ω => ⟨_, by rw [ht]; rfl⟩) hs1 hs2 hs3
    obtain ⟨e1, e2⟩ := back_aipw_moments (beta := 10 * (-(3 / 10) + 3 / 5 * b)) hT hL hv (κ := κ) (by linarith [hc.1]) (by linarith [hc.2])
    rw [e1, e2] at this
    exact Arm.ConsistentOnParts.map (etaHom_inr _ _) this

variable {I : Type} [DecidableEq I] {acfg : I → SSConfig (Cell ℝ) ℝ} {cost : I → ℝ} {cfg : BanditCfg I ℝ} {δ : ℝ} {heap : I → I × ArmState (LinReg 1 ℝ ⊕ AIPW M Q ℝ) (Cell ℝ) ℝ}

/-- a bandit of the world of the tape -/
def tapeEnv (V : Type) : BanditEnv (Tape V) (Cell ℝ) where
  generate := Tape.generate 1
  choice := fun _ h w => (⟨0, h⟩, w)
  choice2 := fun _ h w => (⟨(⟨0, by omega⟩, ⟨1, by omega⟩), by simp⟩, w)

theorem shows_identity {t : ExpData (Cell ℝ) → Except PyErr (ExpData (Cell ℝ))} (ht : t = ExpData.identityFn) : Shows t 1 1 fun u => u where
  dataset := fun us _ => by rw [ht, List.map_id']; rfl
  covariates := fun _ h => h

open Bandit

/-- **C105** The uniform algorithm on the data of `back_door_scm`, whatever parameters are drawn, with arms of which each has a `LinearRegressionParameter` or an AIPW parameter and its own cost, and without
a limit that ends the run: with probability one no exception is raised, and if one arm is better than the others by more than `error_tol`, the run ends.  The value of an arm is its cost times its
asymptotic variance. -/
theorem C105_uniform_ends (hN : RandomNumbers P U G) (ha : a ∈ Set.Ico (0 : ℝ) 1) (hc : c ∈ Set.Ico (0 : ℝ) 1) (rng : Verif.Rng V ℝ) (hm : 2 ≤ cfg.unitsPerRound) (hnd : cfg.arms.Nodup)
    (h2 : 2 ≤ cfg.arms.length) (hlev : level cfg = .fin δ) (h0 : 0 < δ) (h1 : δ < 1) {lim : Fl ℝ} (hlim : cfg.sampleLimit = some lim) {τ : ℝ} (htol : cfg.errorTol = .fin τ) (hτ : 0 ≤ τ)
    (hR : R.IsRidge SR lam) (hlam : 0 < lam) (hC : C.IsLogistic SC) (hμ : 1 ≤ μ) (hκ : 1 / 10 ^ 15 ≤ κ) (hκ' : κ ≤ 1 / 5)
    (hheap : ∀ i, (heap i).1 = i) (harm : ∀ i ∈ cfg.arms, BackDoorArm SR SC μ κ (acfg i) (heap i).2)
    (choice : (n : ℕ) → 0 < n → Numbers V → Fin n × Numbers V) (choice2 : (n : ℕ) → 2 ≤ n → Numbers V → { p : Fin n × Fin n // p.1 ≠ p.2 } × Numbers V) (v0 : V) :
    ∀ᵐ ω ∂P, ∃ B w, backDoor Numbers.gen (Numbers.start [a, b, c] (fun i => U i ω) (fun i => G i ω) v0) = (.ok B, w) ∧
      ((∃ best gap, BestBy cfg.arms (fun i => cost i * armVariance B.stats.muZ B.beta B.alpha (heap i).2.eta) gap best ∧ τ < gap) →
        NeverRaises (uniformRun ⟨generate B.scm, choice, choice2⟩ (ssFamily acfg (fun _ => sumEtaOps LinReg.ops (AIPW.ops R C)) (Numbers.rng rng) cost) cfg none) (heap, w) ∧
        Ends (uniformRun ⟨generate B.scm, choice, choice2⟩ (ssFamily acfg (fun _ => sumEtaOps LinReg.ops (AIPW.ops R C)) (Numbers.rng rng) cost) cfg none) (heap, w)) := by
  have hv := valid_of_draws ha hc
  have hm0 : 0 < cfg.unitsPerRound := by omega
  obtain ⟨S, hS, -⟩ := C65_backdoor_sampler (Numbers.gen (V := V)) (1 / 5 + 3 / 5 * a) (10 * (-(3 / 10) + 3 / 5 * b)) (-(3 / 10) + 3 / 5 * c) hv.le.1 hv.le.2
  by_cases hbest : ∃ best gap, BestBy cfg.arms (fun i => cost i * armVariance (1 / 5 + 3 / 5 * a) (10 * (-(3 / 10) + 3 / 5 * b)) (-(3 / 10) + 3 / 5 * c) (heap i).2.eta) gap best ∧ τ < gap
  · obtain ⟨best, gap, hb, hgap⟩ := hbest
    have key := C99_ends (env := tapeEnv V) (cost := cost) (acfg := acfg) (eops := fun _ => sumEtaOps LinReg.ops (AIPW.ops R C)) (rng := rng) (P := P)
      (U := fun k ω => backUnit (1 / 5 + 3 / 5 * a) (10 * (-(3 / 10) + 3 / 5 * b)) (-(3 / 10) + 3 / 5 * c) (numbersOf U G cfg.unitsPerRound k ω)) (k0 := 1) (kArm := fun _ => 1) (view := fun _ u => u)
      rfl hnd h2 hlev hlim htol hτ (fun _ _ => rfl) hheap (fun i hi => shows_identity (harm i hi).2.2.1)
      (fun i hi => (back_consistent hN ha hc rng hm h0 h1 hR hlam hC hμ hκ hκ' (harm i hi)) id Function.injective_id) hb hgap v0
    filter_upwards [key] with ω hω
    refine ⟨_, _, by rw [backDoor_start, hS]; rfl, fun _ => ?_⟩
    have hsim := sameBandit (a := a) (b := b) (c := c) hv.le.1 hv.le.2 hS hm0 U G ω (env := tapeEnv V) rfl choice choice2 acfg (fun _ : I => sumEtaOps (LinReg.ops (k := 1)) (AIPW.ops R C)) rng cost
    have hst : WorldRel (OnTape a b c cfg.unitsPerRound (fun i => U i ω) (fun i => G i ω)
        fun i => backUnit (1 / 5 + 3 / 5 * a) (10 * (-(3 / 10) + 3 / 5 * b)) (-(3 / 10) + 3 / 5 * c) (numbersOf U G cfg.unitsPerRound i ω))
        (heap, ⟨fun i => backUnit (1 / 5 + 3 / 5 * a) (10 * (-(3 / 10) + 3 / 5 * b)) (-(3 / 10) + 3 / 5 * c) (numbersOf U G cfg.unitsPerRound i ω), 0, v0⟩)
        (heap, { Numbers.start [a, b, c] (fun i => U i ω) (fun i => G i ω) v0 with i := 3 }) := ⟨rfl, 0, rfl, by simp, by simp [Numbers.start]⟩
    exact ⟨neverRaises_of_sim (fun n => sim_uniform hsim n) hst hω.1, ends_of_sim (fun n => sim_uniform hsim n) hst hω.2⟩
  · refine Eventually.of_forall fun ω => ⟨_, _, by rw [backDoor_start, hS]; rfl, fun h => absurd ?_ hbest⟩
    exact h

/-- **C105** All sufficiently late answers of the uniform algorithm on the data of `back_door_scm` are right, whatever tolerance and sample limit it is run with. -/
theorem C105_uniform_answers (hN : RandomNumbers P U G) (ha : a ∈ Set.Ico (0 : ℝ) 1) (hc : c ∈ Set.Ico (0 : ℝ) 1) (rng : Verif.Rng V ℝ) (hm : 2 ≤ cfg.unitsPerRound) (hnd : cfg.arms.Nodup)
    (h2 : 2 ≤ cfg.arms.length) (hlev : level cfg = .fin δ) (h0 : 0 < δ) (h1 : δ < 1)
    (hR : R.IsRidge SR lam) (hlam : 0 < lam) (hC : C.IsLogistic SC) (hμ : 1 ≤ μ) (hκ : 1 / 10 ^ 15 ≤ κ) (hκ' : κ ≤ 1 / 5)
    (hheap : ∀ i, (heap i).1 = i) (harm : ∀ i ∈ cfg.arms, BackDoorArm SR SC μ κ (acfg i) (heap i).2)
    (choice : (n : ℕ) → 0 < n → Numbers V → Fin n × Numbers V) (choice2 : (n : ℕ) → 2 ≤ n → Numbers V → { p : Fin n × Fin n // p.1 ≠ p.2 } × Numbers V) (v0 : V) (best : I) :
    ∀ᵐ ω ∂P, ∃ B w, backDoor Numbers.gen (Numbers.start [a, b, c] (fun i => U i ω) (fun i => G i ω) v0) = (.ok B, w) ∧
      ((∃ gap > 0, BestBy cfg.arms (fun i => cost i * armVariance B.stats.muZ B.beta B.alpha (heap i).2.eta) gap best) →
        ∃ N, ∀ (tol lim : Fl ℝ) (fuel : ℕ) (r : BanditData I ℝ) s',
          uniformRun ⟨generate B.scm, choice, choice2⟩ (ssFamily acfg (fun _ => sumEtaOps LinReg.ops (AIPW.ops R C)) (Numbers.rng rng) cost) { cfg with errorTol := tol, sampleLimit := some lim } none fuel
            (heap, w) = (.ok (some r), s') → N ≤ r.cum.length → r.best = [best]) := by
  have hv := valid_of_draws ha hc
  have hm0 : 0 < cfg.unitsPerRound := by omega
  obtain ⟨S, hS, -⟩ := C65_backdoor_sampler (Numbers.gen (V := V)) (1 / 5 + 3 / 5 * a) (10 * (-(3 / 10) + 3 / 5 * b)) (-(3 / 10) + 3 / 5 * c) hv.le.1 hv.le.2
  by_cases hbest : ∃ gap > 0, BestBy cfg.arms (fun i => cost i * armVariance (1 / 5 + 3 / 5 * a) (10 * (-(3 / 10) + 3 / 5 * b)) (-(3 / 10) + 3 / 5 * c) (heap i).2.eta) gap best
  · obtain ⟨gap, hgap, hb⟩ := hbest
    have key := C99_late_answers (env := tapeEnv V) (cost := cost) (acfg := acfg) (eops := fun _ => sumEtaOps LinReg.ops (AIPW.ops R C)) (rng := rng) (P := P)
      (U := fun k ω => backUnit (1 / 5 + 3 / 5 * a) (10 * (-(3 / 10) + 3 / 5 * b)) (-(3 / 10) + 3 / 5 * c) (numbersOf U G cfg.unitsPerRound k ω)) (k0 := 1) (kArm := fun _ => 1) (view := fun _ u => u)
      rfl hnd h2 hlev (fun _ _ => rfl) hheap (fun i hi => shows_identity (harm i hi).2.2.1)
      (fun i hi => (back_consistent hN ha hc rng hm h0 h1 hR hlam hC hμ hκ hκ' (harm i hi)) id Function.injective_id) hb hgap v0
    filter_upwards [key] with ω ⟨N, hω⟩
    refine ⟨_, _, by rw [backDoor_start, hS]; rfl, fun _ => ⟨N, fun tol lim fuel r s' hr hN => ?_⟩⟩
    have hsim := sameBandit (a := a) (b := b) (c := c) hv.le.1 hv.le.2 hS hm0 U G ω (env := tapeEnv V) rfl choice choice2 acfg (fun _ : I => sumEtaOps (LinReg.ops (k := 1)) (AIPW.ops R C)) rng cost
    have hst : WorldRel (OnTape a b c cfg.unitsPerRound (fun i => U i ω) (fun i => G i ω)
        fun i => backUnit (1 / 5 + 3 / 5 * a) (10 * (-(3 / 10) + 3 / 5 * b)) (-(3 / 10) + 3 / 5 * c) (numbersOf U G cfg.unitsPerRound i ω))
        (heap, ⟨fun i => backUnit (1 / 5 + 3 / 5 * a) (10 * (-(3 / 10) + 3 / 5 * b)) (-(3 / 10) + 3 / 5 * c) (numbersOf U G cfg.unitsPerRound i ω), 0, v0⟩)
        (heap, { Numbers.start [a, b, c] (fun i => U i ω) (fun i => G i ω) v0 with i := 3 }) := ⟨rfl, 0, rfl, by simp, by simp [Numbers.start]⟩
    obtain ⟨s'', e⟩ := answer_of_sim (fun n => sim_uniform (cfg := { cfg with errorTol := tol, sampleLimit := some lim }) hsim n) hst hr
    exact hω tol lim fuel r s'' e hN
  · refine Eventually.of_forall fun ω => ⟨_, _, by rw [backDoor_start, hS]; rfl, fun h => absurd ?_ hbest⟩
    exact h

/-- **C105** Successive elimination on the data of `back_door_scm`, with CLT intervals and without a limit that ends the run: with probability one no exception is raised, and if no two arms have the same
value, the run ends. -/
theorem C105_elimination_ends (hN : RandomNumbers P U G) (ha : a ∈ Set.Ico (0 : ℝ) 1) (hc : c ∈ Set.Ico (0 : ℝ) 1) (rng : Verif.Rng V ℝ) (hm : 2 ≤ cfg.unitsPerRound) (hnd : cfg.arms.Nodup)
    (hlev : level cfg = .fin δ) (h0 : 0 < δ) (h1 : δ < 1) {lim : Fl ℝ} (hlim : cfg.sampleLimit = some lim) (hlim0 : lim.lt (.fin 0) = false)
    (hR : R.IsRidge SR lam) (hlam : 0 < lam) (hC : C.IsLogistic SC) (hμ : 1 ≤ μ) (hκ : 1 / 10 ^ 15 ≤ κ) (hκ' : κ ≤ 1 / 5) (hcost : ∀ i ∈ cfg.arms, 0 < cost i)
    (hheap : ∀ i, (heap i).1 = i) (harm : ∀ i ∈ cfg.arms, BackDoorArm SR SC μ κ (acfg i) (heap i).2) (halg : ∀ i ∈ cfg.arms, (acfg i).alg = .clt)
    (choice : (n : ℕ) → 0 < n → Numbers V → Fin n × Numbers V) (choice2 : (n : ℕ) → 2 ≤ n → Numbers V → { p : Fin n × Fin n // p.1 ≠ p.2 } × Numbers V) (v0 : V) :
    ∀ᵐ ω ∂P, ∃ B w, backDoor Numbers.gen (Numbers.start [a, b, c] (fun i => U i ω) (fun i => G i ω) v0) = (.ok B, w) ∧
      ((∀ i ∈ cfg.arms, ∀ j ∈ cfg.arms, i ≠ j →
          cost i * armVariance B.stats.muZ B.beta B.alpha (heap i).2.eta ≠ cost j * armVariance B.stats.muZ B.beta B.alpha (heap j).2.eta) →
        NeverRaises (seRun ⟨generate B.scm, choice, choice2⟩ (ssFamily acfg (fun _ => sumEtaOps LinReg.ops (AIPW.ops R C)) (Numbers.rng rng) cost) cfg none) (heap, w) ∧
        Ends (seRun ⟨generate B.scm, choice, choice2⟩ (ssFamily acfg (fun _ => sumEtaOps LinReg.ops (AIPW.ops R C)) (Numbers.rng rng) cost) cfg none) (heap, w)) := by
  have hv := valid_of_draws ha hc
  have hm0 : 0 < cfg.unitsPerRound := by omega
  obtain ⟨S, hS, -⟩ := C65_backdoor_sampler (Numbers.gen (V := V)) (1 / 5 + 3 / 5 * a) (10 * (-(3 / 10) + 3 / 5 * b)) (-(3 / 10) + 3 / 5 * c) hv.le.1 hv.le.2
  have hnan : ∀ i ∈ cfg.arms, NeverNan 1 (acfg i) (sumEtaOps (LinReg.ops (k := 1)) (AIPW.ops R C)) rng cfg.unitsPerRound δ := fun i hi => by
    refine neverNan_clt (halg i hi) hm h0 h1 fun e d xs e' hen h => ?_
    rcases e with e | e
    · simp only [sumEtaOps, LinReg.ops, Prod.mk.injEq] at h
      exact ⟨h.2.symm, LinReg.score_finite e d xs h.1⟩
    · simp only [sumEtaOps, AIPW.ops, Prod.mk.injEq] at h
      simp only [sumEtaOps, AIPW.ops, Except.ok.injEq] at hen
      exact ⟨h.2.symm, AIPW.score_finite R C e hen d xs h.1⟩
  by_cases hdist : ∀ i ∈ cfg.arms, ∀ j ∈ cfg.arms, i ≠ j → cost i * armVariance (1 / 5 + 3 / 5 * a) (10 * (-(3 / 10) + 3 / 5 * b)) (-(3 / 10) + 3 / 5 * c) (heap i).2.eta ≠
      cost j * armVariance (1 / 5 + 3 / 5 * a) (10 * (-(3 / 10) + 3 / 5 * b)) (-(3 / 10) + 3 / 5 * c) (heap j).2.eta
  · have key := C100_ends (env := tapeEnv V) (cost := cost) (acfg := acfg) (eops := fun _ => sumEtaOps LinReg.ops (AIPW.ops R C)) (rng := rng) (P := P)
      (U := fun k ω => backUnit (1 / 5 + 3 / 5 * a) (10 * (-(3 / 10) + 3 / 5 * b)) (-(3 / 10) + 3 / 5 * c) (numbersOf U G cfg.unitsPerRound k ω)) (k0 := 1) (kArm := fun _ => 1) (view := fun _ u => u)
      rfl hnd hm0 hlev hlim hlim0 (fun _ _ => rfl) hheap (fun i hi => shows_identity (harm i hi).2.2.1) hcost
      (fun i hi => back_consistent hN ha hc rng hm h0 h1 hR hlam hC hμ hκ hκ' (harm i hi)) hnan hdist v0
    filter_upwards [key] with ω hω
    refine ⟨_, _, by rw [backDoor_start, hS]; rfl, fun _ => ?_⟩
    have hsim := sameBandit (a := a) (b := b) (c := c) hv.le.1 hv.le.2 hS hm0 U G ω (env := tapeEnv V) rfl choice choice2 acfg (fun _ : I => sumEtaOps (LinReg.ops (k := 1)) (AIPW.ops R C)) rng cost
    have hst : WorldRel (OnTape a b c cfg.unitsPerRound (fun i => U i ω) (fun i => G i ω)
        fun i => backUnit (1 / 5 + 3 / 5 * a) (10 * (-(3 / 10) + 3 / 5 * b)) (-(3 / 10) + 3 / 5 * c) (numbersOf U G cfg.unitsPerRound i ω))
        (heap, ⟨fun i => backUnit (1 / 5 + 3 / 5 * a) (10 * (-(3 / 10) + 3 / 5 * b)) (-(3 / 10) + 3 / 5 * c) (numbersOf U G cfg.unitsPerRound i ω), 0, v0⟩)
        (heap, { Numbers.start [a, b, c] (fun i => U i ω) (fun i => G i ω) v0 with i := 3 }) := ⟨rfl, 0, rfl, by simp, by simp [Numbers.start]⟩
    exact ⟨neverRaises_of_sim (fun n => sim_se hsim n) hst hω.1, ends_of_sim (fun n => sim_se hsim n) hst hω.2⟩
  · refine Eventually.of_forall fun ω => ⟨_, _, by rw [backDoor_start, hS]; rfl, fun h => absurd ?_ hdist⟩
    exact h

/-- **C105** If one arm has an AIPW parameter and all others a `LinearRegressionParameter` and none of them is cheaper, then, whatever parameters `back_door_scm` draws, the uniform algorithm with
`error_tol = 0` and without a limit that ends the run almost surely ends without an exception, and almost surely there is a number of rounds from which on every answer, whatever tolerance and limit the
algorithm is run with, is the arm with the AIPW parameter. -/
theorem C105_aipw_is_chosen (hN : RandomNumbers P U G) (ha : a ∈ Set.Ico (0 : ℝ) 1) (hb : b ∈ Set.Ico (0 : ℝ) 1) (hc : c ∈ Set.Ico (0 : ℝ) 1) (rng : Verif.Rng V ℝ) (hm : 2 ≤ cfg.unitsPerRound)
    (hnd : cfg.arms.Nodup) (h2 : 2 ≤ cfg.arms.length) (hlev : level cfg = .fin δ) (h0 : 0 < δ) (h1 : δ < 1) {lim : Fl ℝ} (hlim : cfg.sampleLimit = some lim) (htol : cfg.errorTol = .fin 0)
    (hR : R.IsRidge SR lam) (hlam : 0 < lam) (hC : C.IsLogistic SC) (hμ : 1 ≤ μ) (hκ : 1 / 10 ^ 15 ≤ κ) (hκ' : κ ≤ 1 / 5)
    (hheap : ∀ i, (heap i).1 = i) (harm : ∀ i ∈ cfg.arms, BackDoorArm SR SC μ κ (acfg i) (heap i).2)
    {best : I} (hmem : best ∈ cfg.arms) (hcost : 0 < cost best) (hbest : ∃ e, (heap best).2.eta = .inr e) (hrest : ∀ i ∈ cfg.arms, i ≠ best → cost best ≤ cost i ∧ ∃ e, (heap i).2.eta = .inl e)
    (choice : (n : ℕ) → 0 < n → Numbers V → Fin n × Numbers V) (choice2 : (n : ℕ) → 2 ≤ n → Numbers V → { p : Fin n × Fin n // p.1 ≠ p.2 } × Numbers V) (v0 : V) :
    ∀ᵐ ω ∂P, ∃ B w, backDoor Numbers.gen (Numbers.start [a, b, c] (fun i => U i ω) (fun i => G i ω) v0) = (.ok B, w) ∧
      NeverRaises (uniformRun ⟨generate B.scm, choice, choice2⟩ (ssFamily acfg (fun _ => sumEtaOps LinReg.ops (AIPW.ops R C)) (Numbers.rng rng) cost) cfg none) (heap, w) ∧
      Ends (uniformRun ⟨generate B.scm, choice, choice2⟩ (ssFamily acfg (fun _ => sumEtaOps LinReg.ops (AIPW.ops R C)) (Numbers.rng rng) cost) cfg none) (heap, w) ∧
      ∃ N, ∀ (tol lim : Fl ℝ) (fuel : ℕ) (r : BanditData I ℝ) s',
        uniformRun ⟨generate B.scm, choice, choice2⟩ (ssFamily acfg (fun _ => sumEtaOps LinReg.ops (AIPW.ops R C)) (Numbers.rng rng) cost) { cfg with errorTol := tol, sampleLimit := some lim } none fuel
          (heap, w) = (.ok (some r), s') → N ≤ r.cum.length → r.best = [best] := by
  obtain ⟨-, v1, v2⟩ := C101_comparison (p := 1 / 5 + 3 / 5 * a) (beta := 10 * (-(3 / 10) + 3 / 5 * b)) (alpha := -(3 / 10) + 3 / 5 * c)
    ⟨by linarith [ha.1], by linarith [ha.2]⟩ ⟨by linarith [hb.1], by linarith [hb.2]⟩ ⟨by linarith [hc.1], by linarith [hc.2]⟩
  have hgap : 0 < cost best * (regressionVariance (1 / 5 + 3 / 5 * a) (10 * (-(3 / 10) + 3 / 5 * b)) (-(3 / 10) + 3 / 5 * c) - aipwVariance (1 / 5 + 3 / 5 * a) (-(3 / 10) + 3 / 5 * c)) :=
    mul_pos hcost (by linarith)
  have hB : BestBy cfg.arms (fun i => cost i * armVariance (1 / 5 + 3 / 5 * a) (10 * (-(3 / 10) + 3 / 5 * b)) (-(3 / 10) + 3 / 5 * c) (heap i).2.eta)
      (cost best * (regressionVariance (1 / 5 + 3 / 5 * a) (10 * (-(3 / 10) + 3 / 5 * b)) (-(3 / 10) + 3 / 5 * c) - aipwVariance (1 / 5 + 3 / 5 * a) (-(3 / 10) + 3 / 5 * c))) best := by
    refine ⟨hmem, fun i hi hne => ?_⟩
    obtain ⟨e, he⟩ := hbest
    obtain ⟨hle, e', he'⟩ := hrest i hi hne
    simp only [he, he', armVariance]
    nlinarith
  filter_upwards [C105_uniform_ends (b := b) (cost := cost) hN ha hc rng hm hnd h2 hlev h0 h1 hlim htol le_rfl hR hlam hC hμ hκ hκ' hheap harm choice choice2 v0,
    C105_uniform_answers (b := b) (cost := cost) hN ha hc rng hm hnd h2 hlev h0 h1 hR hlam hC hμ hκ hκ' hheap harm choice choice2 v0 best] with ω ⟨B, w, e1, h1⟩ ⟨B', w', e2, h2⟩
  have e3 := e1.symm.trans e2
  obtain ⟨eB, rfl⟩ := Prod.mk.inj e3
  obtain rfl := Except.ok.inj eB
  obtain ⟨b1, b2, b3⟩ := back_parameters ha hc e1
  rw [← b1, ← b2, ← b3] at hB hgap
  exact ⟨B, w, e1, (h1 ⟨best, _, hB, hgap⟩).1, (h1 ⟨best, _, hB, hgap⟩).2, h2 ⟨_, hgap, hB⟩⟩

end

/-! ## Non-vacuity -/

namespace BackDemo
open AIPW

/-- two arms: `false` has a regression, `true` an AIPW parameter -/
noncomputable def heap (i : Bool) : Bool × ArmState (LinReg 1 ℝ ⊕ AIPW (List ℝ → ℝ) (List ℝ → ℝ) ℝ) (Cell ℝ) ℝ := (i, init (bif i then .inr fourNew else .inl (LinReg.new 1)))

noncomputable def cfg : BanditCfg Bool ℝ := ⟨[false, true], .fin (1 / 10), .fin 0, none, some .pinf, 10⟩

theorem level_eq : Bandit.level cfg = .fin (1 / 20) := by norm_num [Bandit.level, cfg, Fl.div]

theorem arm (i : Bool) : BackDoorArm (fun _ => True) (fun _ => True) 10 (1 / 20) (LinReg.demoCfg .clt) (heap i).2 := by
  refine ⟨Or.inl rfl, rfl, rfl, rfl, rfl, ?_⟩
  cases i
  · exact one_pos
  · exact four_regular

end BackDemo

open NumbersDemo AIPW in
/-- non-vacuity of `C105_aipw_is_chosen` and thereby of `C105_uniform_ends` and `C105_uniform_answers` -/
example (rng : Verif.Rng V ℝ) (v0 : V) (choice : (n : ℕ) → 0 < n → Numbers V → Fin n × Numbers V)
    (choice2 : (n : ℕ) → 2 ≤ n → Numbers V → { p : Fin n × Fin n // p.1 ≠ p.2 } × Numbers V) :
    ∀ᵐ ω ∂space, ∃ B w, backDoor Numbers.gen (Numbers.start [1 / 2, 1 / 4, 2 / 3] (fun i => ω (.inl i)) (fun i => ω (.inr i)) v0) = (.ok B, w) ∧
      Ends (Bandit.uniformRun ⟨generate B.scm, choice, choice2⟩ (Bandit.ssFamily (fun _ => LinReg.demoCfg .clt) (fun _ => sumEtaOps LinReg.ops (AIPW.ops (idealRidge 1) idealLogistic)) (Numbers.rng rng)
        fun _ => 1) BackDemo.cfg none) (BackDemo.heap, w) := by
  filter_upwards [C105_aipw_is_chosen (SR := fun _ => True) (SC := fun _ => True) (cfg := BackDemo.cfg) (heap := BackDemo.heap) (acfg := fun _ => LinReg.demoCfg .clt) (cost := fun _ => 1) (best := true)
    randomNumbers (a := 1 / 2) (b := 1 / 4) (c := 2 / 3) (by norm_num) (by norm_num) (by norm_num) rng (by norm_num [BackDemo.cfg]) (by simp [BackDemo.cfg]) (by simp [BackDemo.cfg]) BackDemo.level_eq
    (by norm_num) (by norm_num) rfl rfl (idealRidge_isRidge (alpha := 1) (by norm_num)) (by norm_num) idealLogistic_isLogistic (by norm_num) (by norm_num) (by norm_num) (fun _ => rfl)
    (fun i _ => BackDemo.arm i) (by simp [BackDemo.cfg]) one_pos ⟨_, rfl⟩ (fun i _ hi => ⟨le_rfl, by cases i; exacts [⟨_, rfl⟩, absurd rfl hi]⟩) choice choice2 v0] with ω ⟨B, w, e, _, h, _⟩
  exact ⟨B, w, e, h⟩

open NumbersDemo AIPW in
/-- non-vacuity of `C105_elimination_ends` -/
example (rng : Verif.Rng V ℝ) (v0 : V) (choice : (n : ℕ) → 0 < n → Numbers V → Fin n × Numbers V)
    (choice2 : (n : ℕ) → 2 ≤ n → Numbers V → { p : Fin n × Fin n // p.1 ≠ p.2 } × Numbers V) :
    ∀ᵐ ω ∂space, ∃ B w, backDoor Numbers.gen (Numbers.start [1 / 2, 1 / 4, 2 / 3] (fun i => ω (.inl i)) (fun i => ω (.inr i)) v0) = (.ok B, w) ∧
      Ends (Bandit.seRun ⟨generate B.scm, choice, choice2⟩ (Bandit.ssFamily (fun _ => LinReg.demoCfg .clt) (fun _ => sumEtaOps LinReg.ops (AIPW.ops (idealRidge 1) idealLogistic)) (Numbers.rng rng)
        fun _ => 1) BackDemo.cfg none) (BackDemo.heap, w) := by
  filter_upwards [C105_elimination_ends (SR := fun _ => True) (SC := fun _ => True) (cfg := BackDemo.cfg) (heap := BackDemo.heap) (acfg := fun _ => LinReg.demoCfg .clt) (cost := fun _ => 1)
    randomNumbers (a := 1 / 2) (b := 1 / 4) (c := 2 / 3) (by norm_num) (by norm_num) rng (by norm_num [BackDemo.cfg]) (by simp [BackDemo.cfg]) BackDemo.level_eq
    (by norm_num) (by norm_num) rfl rfl (idealRidge_isRidge (alpha := 1) (by norm_num)) (by norm_num) idealLogistic_isLogistic (by norm_num) (by norm_num) (by norm_num) (fun _ _ => one_pos) (fun _ => rfl)
    (fun i _ => BackDemo.arm i) (fun _ _ => rfl) choice choice2 v0] with ω ⟨B, w, e, h⟩
  refine ⟨B, w, e, (h ?_).2⟩
  obtain ⟨b1, b2, b3⟩ := back_parameters (by norm_num) (by norm_num) e
  obtain ⟨-, v1, v2⟩ := C101_comparison (p := B.stats.muZ) (beta := B.beta) (alpha := B.alpha) (by rw [b1]; norm_num) (by rw [b2]; norm_num) (by rw [b3]; norm_num)
  intro i _ j _ hij
  cases i <;> cases j <;> first | exact absurd rfl hij | skip
  · simp only [BackDemo.heap, init, cond_true, cond_false, armVariance]; exact fun h => by linarith
  · simp only [BackDemo.heap, init, cond_true, cond_false, armVariance]; exact fun h => by linarith

end Example
end Verif
