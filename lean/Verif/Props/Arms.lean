import Verif.Lemmas.Arms7
import Verif.Lemmas.Arms8
import Verif.Lemmas.Arms9
import Mathlib.NumberTheory.ZetaValues

/-!
# Properties C19-C30: the variance-estimator arms
-/

set_option linter.unusedSectionVars false

namespace Verif
namespace Arm
open ExpData ProbabilityTheory Filter Topology

section Demo
variable {α : Type} [Field α] [LinearOrder α]

/-- Running example: a nuisance parameter that remembers the size of its last training set, needs two
units and uses the responses as scores. -/
def demoEta : EtaOps Nat Int α where
  fit := fun _ d => (.ok (), d.nUnits)
  hasEnough := fun e => .ok (decide (2 ≤ e))
  score := fun e d => (.ok ((d.rsp.getD []).map fun x => Fl.fin (x : α)), e)
  csWidth := fun _ _ _ _ => .ok (some (.fin 1))
  reset := fun _ => 0

/-- Running example: identity permutations and alternating masks, counting the draws. -/
def demoRng : Rng Nat α where
  perm := fun n w => (Equiv.refl (Fin n), w + 1)
  mask := fun _ _ w => (fun i => (i.val + w) % 2 == 0, w + 1)

/-- Running example configuration. -/
def demoCfg (alg : CIAlgorithm) (stable : Bool) : SSConfig Int α where
  transform := .ok
  alg := alg
  stable := stable
  subG := .fin 1
  etaSubG := .fin 1
  tauBound := .fin 1
  burnIn := .fin 2
  rho := .fin 1

/-- A rational stand-in for the library functions, to run examples. -/
def demoLib : Libm ℚ where
  sqrt := fun x => x
  log := fun x => x
  normPpf := fun x => x.sub (.fin (1 / 2))
  chi2Ppf := fun q _ => q

/-- The first fold of `demo` under `demoRng`. -/
def demoF0 : ExpData Int := new (some (.d2 2 [[1, 2], [5, 6], [9, 10]])) (some [0, 0, 1]) (some [5, 7, 9])
/-- The second fold of `demo` under `demoRng`. -/
def demoF1 : ExpData Int := new (some (.d2 2 [[3, 4], [7, 8]])) (some [1, 1]) (some [6, 8])

theorem demo_fold : demo.kFold 2 (Equiv.refl (Fin demo.nUnits)) = .ok [demoF0, demoF1] := by decide +kernel

theorem demo_addData {E : Type} (alg : CIAlgorithm) (stable : Bool) (s : ArmState E Int α) (hs : s.split = none) (w : Nat) :
    addData (α := α) (demoCfg (α := α) alg stable).transform stable demoRng demo (s, w) =
      (.ok (), { s with split := some [demoF0, demoF1] }, w + 1) := by
  unfold addData
  rw [Py.bind_ok (show transformAndFold (α := α) (demoCfg (α := α) alg stable).transform demoRng demo (s, w) = (.ok [demoF0, demoF1], s, w + 1) from by
    show (demo.kFold 2 (Equiv.refl (Fin demo.nUnits)), s, w + 1) = _
    rw [demo_fold]), Py.bind_ok (Py.get_apply _)]
  dsimp only
  rw [hs]
  rfl

theorem demo_sameKind (d : ExpData Int) : SameKind d d := ⟨rfl, rfl, rfl, rfl⟩

end Demo

section General
variable {E β α W : Type} [Field α] [LinearOrder α]

/-! ## C19 -/

/-- **C19** For every history of batches fed to a `SampleSplittingArm` with incremental splitting (the
default), every random split and every nuisance parameter: there is one assignment of the units of each
(transformed) batch to two disjoint covering parts such that fold 0 is exactly the first parts and fold 1
exactly the second parts, in arrival order; `get_num_units()` is the number of units fed; the nuisance
parameter was only ever fitted on the first parts (of all batches so far) and only ever scored on the
second parts. -/
theorem C19_sample_splitting (cfg : SSConfig β α) (hst : cfg.stable = true) (ops : EtaOps E β α) (lib : Libm α) (rng : Rng W α)
    (T : ExpData β → ExpData β) (hist : List (ExpData β × Fl α)) (hg : GoodHist cfg.transform T hist) (e : E) (w : W) :
    ∃ assign : List (List Nat × List Nat), IsAssignment T hist assign ∧
      (hist ≠ [] → ∃ f0 f1 : ExpData β,
        (runUpdates (ssUpdate cfg ops.logged lib rng) hist (init (e, []), w)).2.1.split = some [f0, f1] ∧
        f0.units = assignedUnits T Prod.fst hist assign ∧ f1.units = assignedUnits T Prod.snd hist assign) ∧
      ssNumUnits (runUpdates (ssUpdate cfg ops.logged lib rng) hist (init (e, []), w)).2.1 =
        (hist.map fun p => (T p.1).nUnits).sum ∧
      ∀ c ∈ (runUpdates (ssUpdate cfg ops.logged lib rng) hist (init (e, []), w)).2.1.eta.2, CallAt T hist assign c := by
  obtain ⟨assign, h1, h2, h3⟩ := run_log cfg hst ops lib rng T hist hg e w
  refine ⟨assign, h1, ?_, ssNumUnits_of_folds T hist assign h1 _ h2, h3⟩
  intro hh
  obtain ⟨f0, f1, a, -, -, -, b, c⟩ := h2.2 hh
  exact ⟨f0, f1, a, b, c⟩

/-- **C19** The recording nuisance parameter used in `C19_sample_splitting` changes nothing: outcomes and
arm states are those of the arm with the original one. -/
theorem C19_logging_faithful (cfg : SSConfig β α) (ops : EtaOps E β α) (lib : Libm α) (rng : Rng W α)
    (hist : List (ExpData β × Fl α)) (e : E) (w : W) :
    let a := runUpdates (ssUpdate cfg ops.logged lib rng) hist (init (e, []), w)
    let b := runUpdates (ssUpdate cfg ops lib rng) hist (init e, w)
    a.1 = b.1 ∧ a.2.1.split = b.2.1.split ∧ a.2.1.eta.1 = b.2.1.eta ∧ a.2.1.ci = b.2.1.ci ∧
    a.2.1.varEst = b.2.1.varEst ∧ a.2.1.ate = b.2.1.ate ∧ a.2.1.numPulled = b.2.1.numPulled ∧ a.2.2 = b.2.2 := by
  obtain ⟨h1, h2, h3, h4, h5, h6, h7, h8, h9⟩ := runUpdates_sim
    (fun d δ => (respects_erased (W := W) ops).sim_ssUpdate cfg lib rng d δ) hist
    (init (e, []), w) (init e, w) ⟨rfl, rfl, rfl, rfl, rfl, rfl, rfl, rfl⟩
  exact ⟨h1, h7, h3, h2, h5, h4, h6, h9⟩

/-- two batches of the running example are an acceptable history -/
theorem demo_good (alg : CIAlgorithm) (stable : Bool) :
    GoodHist (demoCfg (α := ℚ) alg stable).transform id [(demo, Fl.fin (1 / 2 : ℚ)), (demo, .fin (1 / 4))] where
  delta := by
    intro p hp
    simp only [List.mem_cons, List.not_mem_nil, or_false] at hp
    rcases hp with rfl | rfl <;> exact ⟨_, rfl, by norm_num, by norm_num⟩
  transform := fun p _ => rfl
  wf := by
    intro p hp
    simp only [List.mem_cons, List.not_mem_nil, or_false] at hp
    rcases hp with rfl | rfl <;> exact demo_wf
  kind := by
    intro p hp q hq
    simp only [List.mem_cons, List.not_mem_nil, or_false] at hp hq
    rcases hp with rfl | rfl <;> rcases hq with rfl | rfl <;> exact demo_sameKind demo

/-- non-vacuity of C19: two updates, both folds get data, both kinds of calls happen -/
example : (runUpdates (ssUpdate (demoCfg .clt true) demoEta.logged demoLib demoRng)
    [(demo, .fin (1 / 2)), (demo, .fin (1 / 4))] (init (0, []), 0)).2.1.eta.2.length = 8 ∧
    ssNumUnits (runUpdates (ssUpdate (demoCfg .clt true) demoEta.logged demoLib demoRng)
      [(demo, .fin (1 / 2)), (demo, .fin (1 / 4))] (init (0, []), 0)).2.1 = 10 := by
  decide +kernel

/-! ## C20 -/

/-- **C20 (violated)** With `stable_splits=False` an update discards all earlier data: after every history
`get_num_units()` is the size of the last batch, which is less than what was fed as soon as an earlier
batch was not empty. -/
theorem C20_resplit_violated (cfg : SSConfig β α) (hst : cfg.stable = false) (ops : EtaOps E β α) (lib : Libm α) (rng : Rng W α)
    (T : ExpData β → ExpData β) (hist : List (ExpData β × Fl α)) (p : ExpData β × Fl α)
    (hg : GoodHist cfg.transform T (hist ++ [p])) (hne : ∃ q ∈ hist, 0 < (T q.1).nUnits) (s : ArmState E β α) (w : W) :
    ssNumUnits (runUpdates (ssUpdate cfg ops lib rng) (hist ++ [p]) (s, w)).2.1 = (T p.1).nUnits ∧
    ssNumUnits (runUpdates (ssUpdate cfg ops lib rng) (hist ++ [p]) (s, w)).2.1 <
      ((hist ++ [p]).map fun q => (T q.1).nUnits).sum := by
  obtain ⟨d, δ⟩ := p
  have h1 : ssNumUnits (runUpdates (ssUpdate cfg ops lib rng) (hist ++ [(d, δ)]) (s, w)).2.1 = (T d).nUnits := by
    rw [runUpdates_snoc]
    generalize (runUpdates (ssUpdate cfg ops lib rng) hist (s, w)).2 = st
    obtain ⟨s1, w1⟩ := st
    obtain ⟨f0, f1, I, J, w', h1, h2, -, -, -, -, h3, h4⟩ := addData_set (E := E) cfg.transform false rng d (T d)
      (hg.transform (d, δ) (by simp)) (hg.wf (d, δ) (by simp)) { s1 with numPulled := s1.numPulled + 1, delta := some δ } w1 (Or.inr rfl)
    rw [← hst] at h1
    have h5 := (ssUpdate_after cfg ops lib rng d δ (hg.delta (d, δ) (by simp)) s1 w1 w' _ h1).2.1
    have h6 := h2.length_eq
    simp only [List.length_append, List.length_range] at h6
    have h7 : f0.nUnits = I.length := by rw [← units_length, h3, List.length_map]
    have h8 : f1.nUnits = J.length := by rw [← units_length, h4, List.length_map]
    simp only [ssNumUnits, h5, List.map_cons, List.map_nil, List.sum_cons, List.sum_nil]
    omega
  refine ⟨h1, ?_⟩
  rw [h1]
  obtain ⟨q, hq, hpos⟩ := hne
  have : (T q.1).nUnits ≤ (hist.map fun q => (T q.1).nUnits).sum :=
    List.single_le_sum (by simp) _ (List.mem_map_of_mem hq)
  simp only [List.map_append, List.sum_append, List.map_cons, List.map_nil, List.sum_cons, List.sum_nil]
  omega

/-- ten units fed, five reported -/
example : ssNumUnits (runUpdates (ssUpdate (demoCfg .clt false) demoEta demoLib demoRng)
    [(demo, .fin (1 / 2)), (demo, .fin (1 / 4))] (init 0, 0)).2.1 = 5 := by decide +kernel

/-! ## C21 -/

/-- **C21** An invalid `delta` (outside `(0,1)` or NaN) is rejected with `ValueError` and no effect at all. -/
theorem C21_invalid_delta (cfg : SSConfig β α) (ops : EtaOps E β α) (lib : Libm α) (rng : Rng W α) (d : ExpData β)
    (delta : Fl α) (hδ : ¬ ∃ δ : α, delta = .fin δ ∧ 0 < δ ∧ δ < 1) (s : ArmState E β α) (w : W) :
    ssUpdate cfg ops lib rng d delta (s, w) = (.error .valueError, s, w) :=
  ssUpdate_invalid cfg ops lib rng d delta hδ (s, w)

/-- **C21** same for `BootstrapArm`. -/
theorem C21_invalid_delta_bootstrap [IsStrictOrderedRing α] [FloorRing α] (cfg : BootConfig β) (ops : EtaOps E β α) (rng : Rng W α)
    (d : ExpData β) (delta : Fl α) (hδ : ¬ ∃ δ : α, delta = .fin δ ∧ 0 < δ ∧ δ < 1) (s : ArmState E β α) (w : W) :
    bootUpdate cfg ops rng d delta (s, w) = (.error .valueError, s, w) :=
  bootUpdate_invalid cfg ops rng d delta hδ (s, w)

/-- the counter moves by exactly one for every valid level -/
theorem numPulled_valid (cfg : SSConfig β α) (ops : EtaOps E β α) (lib : Libm α) (rng : Rng W α) (d : ExpData β)
    (δ : α) (h0 : 0 < δ) (h1 : δ < 1) (s : ArmState E β α) (w : W) :
    (ssUpdate cfg ops lib rng d (.fin δ) (s, w)).2.1.numPulled = s.numPulled + 1 := by
  rw [ssUpdate_valid cfg ops lib rng d _ ⟨δ, rfl, h0, h1⟩, Py.bind_apply]
  have key := numPulled_addData (E := E) cfg.transform cfg.stable rng d
    ({ s with numPulled := s.numPulled + 1, delta := some (.fin δ) }, w)
  rcases hr : addData (E := E) cfg.transform cfg.stable rng d ({ s with numPulled := s.numPulled + 1, delta := some (.fin δ) }, w) with ⟨r, s1⟩
  rw [hr] at key
  cases r with
  | error e => exact key
  | ok _ =>
    have := (keep_ssEstimate cfg ops lib (.fin δ) s1).2.1
    exact this.trans key

/-- **C21** A `delta` in `(0,1)` is never rejected: the update always goes ahead (the pull is counted),
whatever happens later. -/
theorem C21_valid_delta (cfg : SSConfig β α) (ops : EtaOps E β α) (lib : Libm α) (rng : Rng W α) (d : ExpData β)
    (δ : α) (h0 : 0 < δ) (h1 : δ < 1) (s : ArmState E β α) (w : W) :
    (ssUpdate cfg ops lib rng d (.fin δ) (s, w)).2.1.numPulled = s.numPulled + 1 :=
  numPulled_valid cfg ops lib rng d δ h0 h1 s w

/-- **C21** same for `BootstrapArm`. -/
theorem C21_valid_delta_bootstrap [IsStrictOrderedRing α] [FloorRing α] (cfg : BootConfig β) (ops : EtaOps E β α) (rng : Rng W α)
    (d : ExpData β) (δ : α) (h0 : 0 < δ) (h1 : δ < 1) (s : ArmState E β α) (w : W) :
    (bootUpdate cfg ops rng d (.fin δ) (s, w)).2.1.numPulled = s.numPulled + 1 := by
  rw [bootUpdate_valid cfg ops rng d δ h0 h1, Py.bind_apply]
  have key := numPulled_addData (E := E) cfg.transform cfg.stable rng d
    ({ s with numPulled := s.numPulled + 1, delta := some (.fin δ) }, w)
  rcases hr : addData (E := E) cfg.transform cfg.stable rng d ({ s with numPulled := s.numPulled + 1, delta := some (.fin δ) }, w) with ⟨r, s1⟩
  rw [hr] at key
  cases r with
  | error e => exact key
  | ok _ => exact (keep_bootEstimate cfg ops rng δ s1).2.1.trans key

/-- invalid and valid levels exist -/
example : ¬ ∃ δ : ℚ, (Fl.nan : Fl ℚ) = .fin δ ∧ 0 < δ ∧ δ < 1 := by simp
example : ¬ ∃ δ : ℚ, (Fl.fin 1 : Fl ℚ) = .fin δ ∧ 0 < δ ∧ δ < 1 := by
  rintro ⟨δ, h, h0, h1⟩
  rw [Fl.fin.injEq] at h
  linarith
example : (ssUpdate (demoCfg .other true) demoEta demoLib demoRng demo (.fin (1 / 2)) (init 0, 0)).1.isOk = false ∧
    (ssUpdate (demoCfg .other true) demoEta demoLib demoRng demo (.fin (1 / 2)) (init 0, 0)).2.1.numPulled = 1 := by
  decide +kernel

/-! ## C23 -/

/-- **C23** When the fitted nuisance parameter reports too few samples, `update` succeeds with the
interval `(0, inf)`, variance estimate `inf` and effect estimate NaN. -/
theorem C23_too_few_samples (cfg : SSConfig β α) (ops : EtaOps E β α) (lib : Libm α) (rng : Rng W α) (d t : ExpData β)
    (ht : cfg.transform d = .ok t) (hwf : t.WF) (s : ArmState E β α) (hr : Ready cfg.stable s t)
    (hfew : ∀ x, (ops.fit s.eta x).1 = .ok () ∧ ops.hasEnough (ops.fit s.eta x).2 = .ok false)
    (δ : α) (h0 : 0 < δ) (h1 : δ < 1) (w : W) :
    (ssUpdate cfg ops lib rng d (.fin δ) (s, w)).1 = .ok (.fin 0, .pinf) ∧
    (ssUpdate cfg ops lib rng d (.fin δ) (s, w)).2.1.ci = (some (.fin 0), some .pinf) ∧
    (ssUpdate cfg ops lib rng d (.fin δ) (s, w)).2.1.varEst = some .pinf ∧
    (ssUpdate cfg ops lib rng d (.fin δ) (s, w)).2.1.ate = some .nan := by
  obtain ⟨f0, f1, w', h2, -, -⟩ := addData_ready (E := E) cfg.transform cfg.stable rng d t ht hwf
    { s with numPulled := s.numPulled + 1, delta := some (.fin δ) } w hr
  have h3 := (ssUpdate_after cfg ops lib rng d (.fin δ) ⟨δ, rfl, h0, h1⟩ s w w' _ h2).1
  rw [h3]
  have h4 := estimate_fwd (lib := lib) (W := W) (Estimated.few (cfg := cfg) (ops := ops) (lib := lib) (delta := .fin δ)
    (s := { s with numPulled := s.numPulled + 1, delta := some (.fin δ), split := some [f0, f1] })
    [f0, f1] f0 (ops.fit s.eta f0).2 rfl rfl (Prod.ext (hfew f0).1 rfl) (hfew f0).2) w'
  rw [h4]
  exact ⟨rfl, rfl, rfl, rfl⟩

/-- **C23** Finite-sample intervals with fewer evaluation units than `burn_in`: every successful update
that ends with such a fold 1 gives `(0, inf)`. -/
theorem C23_burn_in (cfg : SSConfig β α) (halg : cfg.alg = .finiteSample) (ops : EtaOps E β α) (lib : Libm α) (rng : Rng W α)
    (d : ExpData β) (delta : Fl α) (s s' : ArmState E β α) (w w' : W) (lo hi : Fl α)
    (h : ssUpdate cfg ops lib rng d delta (s, w) = (.ok (lo, hi), s', w')) (f0 f1 : ExpData β) (hf : s'.split = some [f0, f1])
    (hb : (Fl.fin (f1.nUnits : α)).lt cfg.burnIn = true) :
    lo = .fin 0 ∧ hi = .pinf ∧ s'.ci = (some (.fin 0), some .pinf) := by
  obtain ⟨-, s1, -, -, hest⟩ := ssUpdate_inv h
  cases hest with
  | few l f0 e1 a b c d => exact ⟨rfl, rfl, rfl⟩
  | enough l f0' e1 f1' sc1 e2 sc2 e3 lo hi e4 a b c d e f g hn hi' =>
    have hl : l = [f0, f1] := by
      have : s1.split = some [f0, f1] := hf
      rw [a] at this; exact Option.some.inj this
    subst hl
    simp only [List.getElem?_cons_succ, List.getElem?_cons_zero, Option.some.injEq] at e
    subst e
    cases hi' with
    | chi2 h' => rw [halg] at h'; cases h'
    | clt sc3 e5 h' => rw [halg] at h'; cases h'
    | burnIn ew => exact ⟨rfl, rfl, rfl⟩
    | finite ew _ _ _ _ _ hnb => rw [hb] at hnb; cases hnb

/-- **C23** ... and in that situation `update` does succeed, provided the nuisance parameter works, the
scores have a non-NaN variance and the hyperparameters are valid. -/
theorem C23_burn_in_succeeds (cfg : SSConfig β α) (halg : cfg.alg = .finiteSample) (ops : EtaOps E β α) (lib : Libm α) (rng : Rng W α)
    (d t : ExpData β) (ht : cfg.transform d = .ok t) (hwf : t.WF) (s : ArmState E β α) (hr : Ready cfg.stable s t)
    (hfit : ∀ e x, (ops.fit e x).1 = .ok ()) (hen : ∀ e, ops.hasEnough e = .ok true)
    (hscore : ∀ e x, ∃ sc e' sc' e'', ops.score e x = (.ok sc, e') ∧ ops.score e' x = (.ok sc', e'') ∧
      (Fl.mean (sqDev sc' (Fl.mean sc))).isNan = false)
    (hw : ∀ e a b c, ∃ r, ops.csWidth e a b c = .ok r)
    (hp : cfg.tauBound.le (.fin 0) = false ∧ cfg.burnIn.le (.fin 1) = false ∧ cfg.subG.le (.fin 0) = false)
    (hb : ∀ n : Nat, n ≤ ssNumUnits s + t.nUnits → (Fl.fin (n : α)).lt cfg.burnIn = true)
    (δ : α) (h0 : 0 < δ) (h1 : δ < 1) (w : W) :
    (ssUpdate cfg ops lib rng d (.fin δ) (s, w)).1 = .ok (.fin 0, .pinf) := by
  obtain ⟨f0, f1, w', h2, hle⟩ := addData_ready_le (E := E) cfg.transform cfg.stable rng d t ht hwf
    { s with numPulled := s.numPulled + 1, delta := some (.fin δ) } w hr
  have h3 := (ssUpdate_after cfg ops lib rng d (.fin δ) ⟨δ, rfl, h0, h1⟩ s w w' _ h2).1
  rw [h3]
  obtain ⟨sc, e', sc', e'', a1, a2, a3⟩ := hscore (ops.fit s.eta f0).2 f1
  obtain ⟨r, hwr⟩ := hw e'' ((Fl.fin δ).div (.fin 2)) cfg.etaSubG cfg.rho
  have h4 := estimate_fwd (W := W) (Estimated.enough (cfg := cfg) (ops := ops) (lib := lib) (delta := .fin δ)
    (s := { s with numPulled := s.numPulled + 1, delta := some (.fin δ), split := some [f0, f1] })
    [f0, f1] f0 (ops.fit s.eta f0).2 f1 sc e' sc' e'' (.fin 0) .pinf e'' rfl rfl (Prod.ext (hfit _ f0) rfl) (hen _) rfl a1 a2 a3
    (.burnIn r halg hp.1 hp.2.1 hp.2.2 hwr (hb _ hle))) w'
  rw [h4]

/-- non-vacuity: one unit is too few for the running example; five units with `burn_in = 10` -/
example : (ssUpdate (demoCfg .clt true) demoEta demoLib demoRng (new (some (.d1 [4])) (some [1]) (some [2])) (.fin (1 / 2)) (init 0, 0)).1 =
    .ok (.fin 0, .pinf) := by decide +kernel
example : (ssUpdate { demoCfg (α := ℚ) .finiteSample true with burnIn := .fin 10 } demoEta demoLib demoRng demo (.fin (1 / 2)) (init 0, 0)).1 =
    .ok (.fin 0, .pinf) ∧
    (ssUpdate (demoCfg .finiteSample true) demoEta demoLib demoRng demo (.fin (1 / 2)) (init 0, 0)).1 ≠ .ok (.fin 0, .pinf) := by
  decide +kernel

/-! ## C24 -/

/-- **C24 (violated)** After `reset()` the confidence interval is `(None, None)`, never the interval
`(-inf, inf)` of a new arm. -/
theorem C24_reset_ci_violated (ops : EtaOps E β α) (s : ArmState E β α) (e : E) :
    (reset ops s).ci = (none, none) ∧ (reset ops s).ci ≠ (init e : ArmState E β α).ci := by
  constructor
  · rfl
  · simp [reset, init]

/-- **C24 (partial)** Apart from `ci` (and the write-only attribute `delta`) a reset arm is a new one: same
estimates and counters, and the same outcome for every later update sequence.
Missing: the `ci` itself, which is wrong until the next successful update. -/
theorem C24_reset_partial (cfg : SSConfig β α) (ops : EtaOps E β α) (lib : Libm α) (rng : Rng W α) (s : ArmState E β α)
    (e : E) (hreset : ops.reset s.eta = e) (hist : List (ExpData β × Fl α)) (w : W) :
    (reset ops s).varEst = (init e : ArmState E β α).varEst ∧ (reset ops s).ate = (init e : ArmState E β α).ate ∧
    (reset ops s).numPulled = 0 ∧ ssNumUnits (reset ops s) = 0 ∧
    (runUpdates (ssUpdate cfg ops lib rng) hist (reset ops s, w)).1 = (runUpdates (ssUpdate cfg ops lib rng) hist (init e, w)).1 ∧
    ssNumUnits (runUpdates (ssUpdate cfg ops lib rng) hist (reset ops s, w)).2.1 =
      ssNumUnits (runUpdates (ssUpdate cfg ops lib rng) hist (init e, w)).2.1 := by
  obtain ⟨h1, -, -, h2, -⟩ := runUpdates_sim (fun d δ => (respects_sameCore (W := W) ops).sim_ssUpdate cfg lib rng d δ) hist
    (reset ops s, w) (init e, w) ⟨hreset, rfl, rfl, rfl⟩
  exact ⟨rfl, rfl, rfl, rfl, h1, by simp only [ssNumUnits, h2]⟩

/-- **C24 (partial)** same for `BootstrapArm`. -/
theorem C24_reset_bootstrap_partial [IsStrictOrderedRing α] [FloorRing α] (cfg : BootConfig β) (ops : EtaOps E β α) (rng : Rng W α)
    (s : ArmState E β α) (e : E) (hreset : ops.reset s.eta = e) (hist : List (ExpData β × Fl α)) (w : W) :
    (reset ops s).varEst = (init e : ArmState E β α).varEst ∧ (reset ops s).ate = (init e : ArmState E β α).ate ∧
    (reset ops s).numPulled = 0 ∧
    (runUpdates (bootUpdate cfg ops rng) hist (reset ops s, w)).1 = (runUpdates (bootUpdate cfg ops rng) hist (init e, w)).1 := by
  obtain ⟨h1, -⟩ := runUpdates_sim (fun d δ => (respects_sameCore (W := W) ops).sim_bootUpdate cfg rng d δ) hist
    (reset ops s, w) (init e, w) ⟨hreset, rfl, rfl, rfl⟩
  exact ⟨rfl, rfl, rfl, h1⟩

/-- a reset in the middle of a history that has effects -/
example : (reset demoEta (runUpdates (ssUpdate (demoCfg .clt true) demoEta demoLib demoRng)
    [(demo, .fin (1 / 2)), (demo, .fin (1 / 4))] (init 0, 0)).2.1).ci = (none, none) ∧
    demoEta.reset (α := ℚ) (runUpdates (ssUpdate (demoCfg .clt true) demoEta demoLib demoRng)
    [(demo, .fin (1 / 2)), (demo, .fin (1 / 4))] (init 0, 0)).2.1.eta = 0 := ⟨rfl, rfl⟩

/-! ## C25 -/

/-- **C25 (violated)** Every update with a valid `delta` that raises has changed the pull counter (which
the CLT interval uses). -/
theorem C25_failed_update_violated (cfg : SSConfig β α) (ops : EtaOps E β α) (lib : Libm α) (rng : Rng W α) (d : ExpData β)
    (δ : α) (h0 : 0 < δ) (h1 : δ < 1) (s : ArmState E β α) (w : W) (e : PyErr)
    (_h : (ssUpdate cfg ops lib rng d (.fin δ) (s, w)).1 = .error e) :
    (ssUpdate cfg ops lib rng d (.fin δ) (s, w)).2.1 ≠ s := by
  intro heq
  have := numPulled_valid cfg ops lib rng d δ h0 h1 s w
  rw [heq] at this
  omega

/-- such a failing update exists; it has also filed the data of the failed batch -/
example : (ssUpdate (demoCfg .other true) demoEta demoLib demoRng demo (.fin (1 / 2)) (init 0, 0)).1 = .error .valueError ∧
    ssNumUnits (ssUpdate (demoCfg .other true) demoEta demoLib demoRng demo (.fin (1 / 2)) (init 0, 0)).2.1 = 5 := by
  decide +kernel

/-- **C25 (partial)** What is true: an invalid `delta` changes nothing (`C21_invalid_delta`), and when the
data transformer fails only the pull counter and the attribute `delta` change.
Missing: the counter; and a failure after the data were filed also keeps the batch and the estimates set so far. -/
theorem C25_failed_transform_partial (cfg : SSConfig β α) (ops : EtaOps E β α) (lib : Libm α) (rng : Rng W α) (d : ExpData β)
    (delta : Fl α) (hδ : ValidDelta delta) (s : ArmState E β α) (w : W) (e : PyErr) (ht : cfg.transform d = .error e) :
    ssUpdate cfg ops lib rng d delta (s, w) = (.error e, { s with numPulled := s.numPulled + 1, delta := some delta }, w) := by
  rw [ssUpdate_valid cfg ops lib rng d delta hδ]
  refine Py.bind_error ?_
  unfold addData
  refine Py.bind_error ?_
  unfold transformAndFold
  simp only [ht]

example : ({ demoCfg (α := ℚ) .clt true with transform := fun _ => .error .typeError }).transform demo = .error .typeError := rfl

end General

/-! ## C22, over the real numbers -/

section Real
variable {E β W : Type}

/-- **C22** Every successful update of a CLT arm, over exact real arithmetic and the true normal quantiles:
`ci` is the returned pair, and `0 ≤ lcb ≤ var_est ≤ ucb`.  The nuisance parameter is arbitrary, except that
`calculate_score` must return one score per unit and the same scores when called again. -/
theorem C22_clt_interval (cfg : SSConfig β ℝ) (halg : cfg.alg = .clt) (ops : EtaOps E β ℝ) (hrep : ScoreRepeatable ops)
    (hlen : ∀ e d sc e', ops.score e d = (.ok sc, e') → sc.length = d.nUnits) (rng : Rng W ℝ) (d : ExpData β) (delta : Fl ℝ)
    (s s' : ArmState E β ℝ) (w w' : W) (lo hi : Fl ℝ)
    (h : ssUpdate cfg ops realLib rng d delta (s, w) = (.ok (lo, hi), s', w')) :
    s'.ci = (some lo, some hi) ∧ ∃ v, s'.varEst = some v ∧
      (Fl.fin 0).le lo = true ∧ lo.le v = true ∧ v.le hi = true := by
  obtain ⟨⟨δ, rfl, h0, h1⟩, s1, hn, -, hest⟩ := ssUpdate_inv h
  have hci : s'.ci = (some lo, some hi) := by cases hest <;> rfl
  refine ⟨hci, ?_⟩
  have hk : 0 < s1.numPulled := by omega
  have hk1 : (1 : ℝ) ≤ (s1.numPulled : ℝ) ^ 2 := one_le_pow₀ (by exact_mod_cast hk)
  rcases clt_shape halg hrep hlen h0 h1 hk hest with ⟨-, rfl, rfl, hv⟩ | ⟨l, f1, e, e', xs, -, -, -, -, -, hx, hv, -, rfl, rfl⟩
  · exact ⟨_, hv, by simp [Fl.le, Fl.eq, Fl.lt], by simp [Fl.le, Fl.lt], by simp [Fl.le, Fl.eq]⟩
  · refine ⟨_, hv, ?_⟩
    have hd : 0 < δ / (s1.numPulled : ℝ) ^ 2 := by positivity
    have hd1 : δ / (s1.numPulled : ℝ) ^ 2 < 1 := by rw [div_lt_one (by positivity)]; linarith
    have q1 : quantile (gaussianReal 0 1) (δ / (s1.numPulled : ℝ) ^ 2 / 2) ≤ 0 :=
      normal_quantile_nonpos (by positivity) (by linarith)
    have q2 : 0 < quantile (gaussianReal 0 1) (1 - δ / (s1.numPulled : ℝ) ^ 2 / 2) :=
      normal_quantile_pos (by linarith) (by linarith)
    have hse : 0 ≤ cltSe xs f1.nUnits := Real.sqrt_nonneg _
    exact bracket _ _ _ (pvar_nonneg xs) (mul_nonpos_of_nonpos_of_nonneg q1 hse) (mul_nonneg q2.le hse)

theorem demoEta_repeatable : ScoreRepeatable (demoEta : EtaOps Nat Int ℝ) := fun _ _ => rfl

theorem demoF1_var : (Fl.mean (sqDev ((demoF1.rsp.getD []).map fun x => Fl.fin (x : ℝ)) (Fl.mean ((demoF1.rsp.getD []).map fun x => Fl.fin (x : ℝ))))).isNan = false := by
  have h := var_fin [(6 : ℝ), 8] (by simp)
  unfold Fl.var at h
  have e : ((demoF1.rsp.getD []).map fun x => Fl.fin (x : ℝ)) = [(6 : ℝ), 8].map Fl.fin := by
    simp [demoF1, new]
  rw [e]
  unfold sqDev
  rw [h]; rfl

/-- a finished update of the running example over the reals, for any interval that can be computed -/
theorem demo_update (cfg : SSConfig Int ℝ) (ht : cfg.transform = .ok) (δ : ℝ) (h0 : 0 < δ) (h1 : δ < 1) (lo hi : Fl ℝ) (e4 : Nat)
    (hiv : IntervalOf cfg demoEta realLib (.fin δ) 1 demoF1 demoF0.nUnits
      (Fl.mean (sqDev ((demoF1.rsp.getD []).map fun x => Fl.fin (x : ℝ)) (Fl.mean ((demoF1.rsp.getD []).map fun x => Fl.fin (x : ℝ)))))
      (Fl.mean ((demoF1.rsp.getD []).map fun x => Fl.fin (x : ℝ))) lo hi e4) :
    ∃ s', ssUpdate cfg demoEta realLib demoRng demo (.fin δ) (init 0, 0) = (.ok (lo, hi), s', 1) := by
  have hadd := demo_addData (α := ℝ) cfg.alg cfg.stable
    { (init 0 : ArmState Nat Int ℝ) with numPulled := 1, delta := some (.fin δ) } rfl 0
  have hadd' : addData (α := ℝ) cfg.transform cfg.stable demoRng demo
      ({ (init 0 : ArmState Nat Int ℝ) with numPulled := (init 0 : ArmState Nat Int ℝ).numPulled + 1, delta := some (.fin δ) }, 0) =
      (.ok (), { (init 0 : ArmState Nat Int ℝ) with numPulled := (init 0 : ArmState Nat Int ℝ).numPulled + 1, delta := some (.fin δ), split := some [demoF0, demoF1] }, 1) := by
    rw [ht]; exact hadd
  rw [(ssUpdate_after cfg demoEta realLib demoRng demo (.fin δ) ⟨δ, rfl, h0, h1⟩ (init 0) 0 1 _ hadd').1]
  exact ⟨_, estimate_fwd (Estimated.enough [demoF0, demoF1] demoF0 demoF0.nUnits demoF1 _ _ _ _ lo hi e4 rfl rfl rfl rfl rfl rfl rfl
    demoF1_var hiv) 1⟩

/-- non-vacuity of `C22_clt_interval`: a successful CLT update exists -/
example : ∃ lo hi s' w', ssUpdate (demoCfg .clt true) demoEta realLib demoRng demo (.fin (1 / 2)) (init 0, 0) = (.ok (lo, hi), s', w') := by
  obtain ⟨s', h⟩ := demo_update (demoCfg .clt true) rfl (1 / 2) (by norm_num) (by norm_num) _ _ _ (.clt _ _ rfl rfl)
  exact ⟨_, _, s', _, h⟩

/-- **C22 (partial)** Every successful update of a finite-sample arm brackets the estimate, when the
sub-Gaussian scale satisfies `max(g, 8 g^2) ≥ 1/4`, the hyperparameters are finite and the nuisance width is
not NaN.  Missing: tiny scales `g`, for which the interval can be NaN (`C22_finite_sample_violated`). -/
theorem C22_finite_sample_partial (cfg : SSConfig β ℝ) (halg : cfg.alg = .finiteSample) (ops : EtaOps E β ℝ)
    (hrep : ScoreRepeatable ops) (g τ m : ℝ) (hg : cfg.subG = .fin g) (hτ : cfg.tauBound = .fin τ) (hm : cfg.burnIn = .fin m)
    (hbig : 1 / 4 ≤ max g (8 * g ^ 2)) (hcs : ∀ e a b c r, ops.csWidth e a b c = .ok (some r) → r ≠ .nan)
    (rng : Rng W ℝ) (d : ExpData β) (delta : Fl ℝ) (s s' : ArmState E β ℝ) (w w' : W) (lo hi : Fl ℝ)
    (h : ssUpdate cfg ops realLib rng d delta (s, w) = (.ok (lo, hi), s', w')) :
    s'.ci = (some lo, some hi) ∧ ∃ v, s'.varEst = some v ∧
      (Fl.fin 0).le lo = true ∧ lo.le v = true ∧ v.le hi = true := by
  obtain ⟨⟨δ, rfl, h0, h1⟩, s1, hn, -, hest⟩ := ssUpdate_inv h
  have hci : s'.ci = (some lo, some hi) := by cases hest <;> rfl
  refine ⟨hci, ?_⟩
  rcases finite_shape halg hrep hest with ⟨rfl, rfl, v, hv, hv'⟩ | ⟨l, f1, e, e', xs, ew, -, -, -, hx, hv, -, p1, p2, p3, p4, p5, rfl, rfl⟩
  · refine ⟨v, hv, by simp [Fl.le, Fl.eq, Fl.lt], ?_⟩
    rcases hv' with rfl | ⟨x, hx, rfl⟩
    · simp [Fl.le, Fl.eq, Fl.lt]
    · refine ⟨?_, by simp [Fl.le, Fl.lt]⟩
      simp only [Fl.le, Fl.lt, Fl.eq, Bool.or_eq_true, decide_eq_true_eq]
      exact hx.lt_or_eq
  · rw [hg, hτ, hm] at *
    refine ⟨_, hv, ?_⟩
    have hgpos : 0 < g := by
      by_contra hneg
      push Not at hneg
      rw [Bool.eq_false_iff] at p3
      apply p3
      simp only [Fl.le, Fl.lt, Fl.eq, Bool.or_eq_true, decide_eq_true_eq]
      exact hneg.lt_or_eq
    have hτpos : 0 < τ := by
      by_contra hneg
      push Not at hneg
      rw [Bool.eq_false_iff] at p1
      apply p1
      simp only [Fl.le, Fl.lt, Fl.eq, Bool.or_eq_true, decide_eq_true_eq]
      exact hneg.lt_or_eq
    have hm1 : 1 < m := by
      by_contra hneg
      push Not at hneg
      rw [Bool.eq_false_iff] at p2
      apply p2
      simp only [Fl.le, Fl.lt, Fl.eq, Bool.or_eq_true, decide_eq_true_eq]
      exact hneg.lt_or_eq
    have hmn : m ≤ f1.nUnits := by
      simpa [Fl.lt] using p5
    have hn0 : 0 < f1.nUnits := by
      have : (0 : ℝ) < f1.nUnits := by linarith
      exact_mod_cast this
    have hnn := fsInner_nonneg g m δ f1.nUnits hbig hm1 hmn h0 h1
    rw [fsWidth_eq g τ m δ f1.nUnits ew hgpos hm1 h0 hn0, if_neg (not_lt.mpr hnn)]
    have hw := fsHalfWidth_nonneg g τ m δ f1.nUnits hτpos
    have hv0 := pvar_nonneg xs
    have hewnan := hcs _ _ _ _ _ p4
    have hinf : ∀ X : Fl ℝ, X = .pinf → (Fl.fin 0).le (Fl.maxStep ((Fl.fin (pvar xs)).sub X) (.fin 0)) = true ∧
        (Fl.maxStep ((Fl.fin (pvar xs)).sub X) (.fin 0)).le (.fin (pvar xs)) = true ∧ (Fl.fin (pvar xs)).le ((Fl.fin (pvar xs)).add X) = true := by
      rintro X rfl
      simp only [Fl.sub, Fl.neg, Fl.add, Fl.maxStep, Fl.lt, if_true, Fl.le, Fl.eq, Bool.or_eq_true, decide_eq_true_eq, lt_self_iff_false, false_or, true_or, true_and, and_true]
      exact hv0.lt_or_eq
    cases ew with
    | nan => exact absurd rfl hewnan
    | ninf => exact hinf _ rfl
    | pinf => exact hinf _ rfl
    | fin x =>
      have hb := bracket (pvar xs) (-(fsHalfWidth g τ m δ f1.nUnits + x * x)) (fsHalfWidth g τ m δ f1.nUnits + x * x) hv0
        (by nlinarith) (by nlinarith)
      exact hb

/-- non-vacuity: the hypotheses hold for the running example and the update succeeds -/
example : 1 / 4 ≤ max (1 : ℝ) (8 * 1 ^ 2) ∧
    (∃ lo hi s' w', ssUpdate (demoCfg .finiteSample true) demoEta realLib demoRng demo (.fin (1 / 2)) (init 0, 0) = (.ok (lo, hi), s', w')) := by
  constructor
  · norm_num
  · obtain ⟨s', h⟩ := demo_update (demoCfg .finiteSample true) rfl (1 / 2) (by norm_num) (by norm_num) _ _ _
      (.finite _ rfl (by simp [demoCfg, Fl.le, Fl.lt, Fl.eq]) (by simp [demoCfg, Fl.le, Fl.lt, Fl.eq]) (by simp [demoCfg, Fl.le, Fl.lt, Fl.eq]) rfl
        (by simp [demoCfg, Fl.lt, demoF1, new, Arr.len]))
    exact ⟨_, _, s', _, h⟩

/-- **C22 (violated)** A finite-sample arm with a (valid, positive) tiny `sub_gscale` succeeds with the
interval `(nan, nan)`: two evaluation units, `burn_in = 2`, `delta = 1/2`. -/
theorem C22_finite_sample_violated : ∃ (cfg : SSConfig Int ℝ) (s' : ArmState Nat Int ℝ) (w' : Nat),
    cfg.alg = .finiteSample ∧ (∃ g > 0, cfg.subG = .fin g) ∧ cfg.tauBound = .fin 1 ∧ cfg.burnIn = .fin 2 ∧
    ssUpdate cfg demoEta realLib demoRng demo (.fin (1 / 2)) (init 0, 0) = (.ok (.nan, .nan), s', w') := by
  let g : ℝ := Real.exp (-100)
  have hg : 0 < g := Real.exp_pos _
  have hg8 : 8 * g ≤ 1 := by
    have h1 : g ≤ Real.exp (-8) := Real.exp_le_exp.mpr (by norm_num)
    have h2 : (8 : ℝ) + 1 ≤ Real.exp 8 := Real.add_one_le_exp 8
    rw [Real.exp_neg] at h1
    have h3 : (Real.exp 8)⁻¹ ≤ 9⁻¹ := inv_anti₀ (by norm_num) (by linarith)
    linarith
  have hmax : max g (8 * g ^ 2) = g := max_eq_left (by nlinarith)
  have hneg : fsInner g 2 (1 / 2) 2 < 0 := by
    unfold fsInner
    rw [hmax]
    have h8 : Real.log (4 / (1 / 2) : ℝ) ≤ 7 := by
      have := Real.log_le_sub_one_of_pos (show (0 : ℝ) < 4 / (1 / 2) by norm_num)
      linarith
    have hlg : Real.log (g * ((2 : ℕ) : ℝ) / 2) = -100 := by
      rw [show g * ((2 : ℕ) : ℝ) / 2 = g by push_cast; ring]
      exact Real.log_exp _
    rw [hlg]
    push_cast
    linarith
  have hnan : fsWidth realLib (.fin g) (.fin 1) (.fin 2) (.fin (1 / 2)) 2 (.fin 1) = .nan := by
    rw [fsWidth_eq g 1 2 (1 / 2) 2 _ hg (by norm_num) (by norm_num) (by norm_num), if_pos hneg]
  have h2 : demoF1.nUnits = 2 := rfl
  obtain ⟨s', h⟩ := demo_update { demoCfg .finiteSample true with subG := .fin g } rfl (1 / 2) (by norm_num) (by norm_num) _ _ _
      (.finite (.fin 1) rfl (by simp [demoCfg, Fl.le, Fl.lt, Fl.eq]) (by simp [demoCfg, Fl.le, Fl.lt, Fl.eq])
        (by
          rw [Bool.eq_false_iff]
          simp only [Fl.le, Fl.lt, Fl.eq, Bool.or_eq_true, decide_eq_true_eq, ne_eq]
          rintro (h | h) <;> linarith) rfl
        (by simp [demoCfg, Fl.lt, demoF1, new, Arr.len]))
  refine ⟨{ demoCfg .finiteSample true with subG := .fin g }, s', 1, rfl, ⟨g, hg, rfl⟩, rfl, rfl, ?_⟩
  rw [h]
  simp only [demoCfg, h2, hnan, Fl.sub, Fl.neg, Fl.add_nan]
  rfl

/-! ## C26 -/

/-- **C26** The interval of a finite-sample update past burn-in is `var_est ± width`, clipped at zero, with
the width of arms.py 272-276 (`fsWidth`), evaluated at `delta` and the size of fold 1. -/
theorem C26_interval_uses_width (cfg : SSConfig β ℝ) (halg : cfg.alg = .finiteSample) (ops : EtaOps E β ℝ)
    (hrep : ScoreRepeatable ops) (rng : Rng W ℝ) (d : ExpData β) (delta : Fl ℝ) (s s' : ArmState E β ℝ) (w w' : W) (lo hi : Fl ℝ)
    (h : ssUpdate cfg ops realLib rng d delta (s, w) = (.ok (lo, hi), s', w')) (hinf : hi ≠ .pinf) :
    ∃ (f1 : ExpData β) (l : List (ExpData β)) (v : ℝ) (ew : Fl ℝ), s'.split = some l ∧ l[1]? = some f1 ∧ s'.varEst = some (.fin v) ∧
      ops.csWidth s'.eta (delta.div (.fin 2)) cfg.etaSubG cfg.rho = .ok (some ew) ∧
      lo = Fl.maxStep ((Fl.fin v).sub (fsWidth realLib cfg.subG cfg.tauBound cfg.burnIn delta f1.nUnits ew)) (.fin 0) ∧
      hi = (Fl.fin v).add (fsWidth realLib cfg.subG cfg.tauBound cfg.burnIn delta f1.nUnits ew) := by
  obtain ⟨-, s1, hn, -, hest⟩ := ssUpdate_inv h
  rcases finite_shape halg hrep hest with ⟨rfl, rfl, v, hv, hv'⟩ | ⟨l, f1, e, e', xs, ew, h1, h2, -, hx, hv, -, p1, p2, p3, p4, p5, rfl, rfl⟩
  · exact absurd rfl hinf
  · exact ⟨f1, l, _, ew, h1, h2, hv, p4, rfl, rfl⟩

/-- **C26 (partial)** For `max(g, 8 g^2) ≥ 1/4`, `tau > 0`, `1 < burn_in ≤ n`: the width is a non-negative
number and grows when `delta` shrinks, so the intervals are nested.  Missing: smaller scales, for which the
width can be NaN (`C26_width_violated`). -/
theorem C26_width_monotone_partial (g τ m δ δ' x : ℝ) (n : ℕ) (hbig : 1 / 4 ≤ max g (8 * g ^ 2)) (hg : 0 < g) (hτ : 0 < τ)
    (hm : 1 < m) (hn : m ≤ n) (h0 : 0 < δ) (hle : δ ≤ δ') (h1 : δ' < 1) :
    ∃ a b : ℝ, fsWidth realLib (.fin g) (.fin τ) (.fin m) (.fin δ) n (.fin x) = .fin a ∧
      fsWidth realLib (.fin g) (.fin τ) (.fin m) (.fin δ') n (.fin x) = .fin b ∧ 0 ≤ b ∧ b ≤ a := by
  have hn0 : 0 < n := by
    have : (0 : ℝ) < n := by linarith
    exact_mod_cast this
  have h0' : 0 < δ' := lt_of_lt_of_le h0 hle
  have n1 := fsInner_nonneg g m δ n hbig hm hn h0 (by linarith)
  have n2 := fsInner_nonneg g m δ' n hbig hm hn h0' h1
  refine ⟨fsHalfWidth g τ m δ n + x * x, fsHalfWidth g τ m δ' n + x * x, ?_, ?_, ?_, ?_⟩
  · rw [fsWidth_eq g τ m δ n _ hg hm h0 hn0, if_neg (not_lt.mpr n1)]; rfl
  · rw [fsWidth_eq g τ m δ' n _ hg hm h0' hn0, if_neg (not_lt.mpr n2)]; rfl
  · have := fsHalfWidth_nonneg g τ m δ' n hτ
    nlinarith
  · have := fsHalfWidth_anti g τ m n hτ h0 hle
    linarith

/-- **C26** For every positive scale, bound and burn-in, the width is eventually a number, and apart from the
squared nuisance width it tends to zero as the number of evaluation units grows. -/
theorem C26_width_tendsto (g τ m δ x : ℝ) (hg : 0 < g) (hm : 1 < m) (h0 : 0 < δ) (h1 : δ < 1) :
    ∃ f : ℕ → ℝ, Tendsto f atTop (𝓝 0) ∧
      ∀ᶠ n in atTop, fsWidth realLib (.fin g) (.fin τ) (.fin m) (.fin δ) n (.fin x) = .fin (f n + x ^ 2) := by
  refine ⟨fun n => fsHalfWidth g τ m δ n, fsHalfWidth_tendsto g τ m δ hg (by linarith), ?_⟩
  have hlim := fsInner_tendsto g m δ hg (by linarith)
  have hpos : 0 < 1 / 2 + Real.log (4 / δ) := by
    have : 0 ≤ Real.log (4 / δ) := Real.log_nonneg (by rw [le_div_iff₀ h0]; linarith)
    linarith
  filter_upwards [hlim.eventually (eventually_gt_nhds hpos), eventually_gt_atTop 0] with n hn hn0
  rw [fsWidth_eq g τ m δ n _ hg hm h0 hn0, if_neg (not_lt.mpr hn.le), pow_two]
  rfl

/-- **C26 (violated)** for small `n` and a tiny scale the width is NaN. -/
theorem C26_width_violated : ∃ g : ℝ, 0 < g ∧
    fsWidth realLib (.fin g) (.fin 1) (.fin 2) (.fin (1 / 2)) 2 (.fin 1) = .nan := by
  refine ⟨Real.exp (-100), Real.exp_pos _, ?_⟩
  have hg : (0 : ℝ) < Real.exp (-100) := Real.exp_pos _
  have hg1 : Real.exp (-100) ≤ (1 : ℝ) / 8 := by
    have h2 : (100 : ℝ) + 1 ≤ Real.exp 100 := Real.add_one_le_exp 100
    rw [Real.exp_neg]
    have h3 : (Real.exp 100)⁻¹ ≤ (101 : ℝ)⁻¹ := inv_anti₀ (by norm_num) (by linarith)
    linarith [show (101 : ℝ)⁻¹ ≤ 1 / 8 by norm_num]
  rw [fsWidth_eq _ 1 2 (1 / 2) 2 _ hg (by norm_num) (by norm_num) (by norm_num), if_pos]
  unfold fsInner
  rw [max_eq_left (by nlinarith)]
  have h8 : Real.log (4 / (1 / 2) : ℝ) ≤ 7 := by
    have := Real.log_le_sub_one_of_pos (show (0 : ℝ) < 4 / (1 / 2) by norm_num)
    linarith
  rw [show Real.exp (-100) * ((2 : ℕ) : ℝ) / 2 = Real.exp (-100) by push_cast; ring, Real.log_exp]
  push_cast
  linarith

example : 1 / 4 ≤ max (1 : ℝ) (8 * 1 ^ 2) ∧ (1 : ℝ) < 2 ∧ (2 : ℝ) ≤ (10 : ℕ) ∧ (0 : ℝ) < 1 / 10 ∧ (1 / 10 : ℝ) ≤ 1 / 5 := by norm_num

/-! ## C27 -/

/-- **C27** The interval returned by the `(N+1)`-th update of a CLT arm is the two-sided normal interval of
nominal error level `delta/(N+1)^2` around the mean squared deviation of the current scores, or `(0, inf)`. -/
theorem C27_level_used (cfg : SSConfig β ℝ) (halg : cfg.alg = .clt) (ops : EtaOps E β ℝ) (hrep : ScoreRepeatable ops)
    (hlen : ∀ e d sc e', ops.score e d = (.ok sc, e') → sc.length = d.nUnits) (rng : Rng W ℝ)
    (hist : List (ExpData β × Fl ℝ)) (hδ : ∀ p ∈ hist, ValidDelta p.2) (e0 : E) (w0 : W)
    (d : ExpData β) (δ : ℝ) (s' : ArmState E β ℝ) (w' : W) (lo hi : Fl ℝ)
    (h : ssUpdate cfg ops realLib rng d (.fin δ) (runUpdates (ssUpdate cfg ops realLib rng) hist (init e0, w0)).2 = (.ok (lo, hi), s', w')) :
    (lo = .fin 0 ∧ hi = .pinf) ∨
    ∃ (e e' : E) (f1 : ExpData β) (xs : List ℝ), ops.score e f1 = (.ok (xs.map Fl.fin), e') ∧ xs.length = f1.nUnits ∧
      let level := δ / ((hist.length : ℝ) + 1) ^ 2
      lo = Fl.maxStep (.fin (pvar xs + quantile (gaussianReal 0 1) (level / 2) * Real.sqrt (pvar (sqDevs xs) / xs.length))) (.fin 0) ∧
      hi = .fin (pvar xs + quantile (gaussianReal 0 1) (1 - level / 2) * Real.sqrt (pvar (sqDevs xs) / xs.length)) := by
  have hnum : (runUpdates (ssUpdate cfg ops realLib rng) hist (init e0, w0)).2.1.numPulled = hist.length := by
    clear h
    induction hist using List.reverseRecOn with
    | nil => rfl
    | append_singleton hist p ih =>
      obtain ⟨d', δ'⟩ := p
      rw [runUpdates_snoc]
      have ih' := ih (fun q hq => hδ q (by simp [hq]))
      generalize (runUpdates (ssUpdate cfg ops realLib rng) hist (init e0, w0)).2 = st at *
      obtain ⟨s1, w1⟩ := st
      obtain ⟨x, hx, hx0, hx1⟩ := hδ (d', δ') (by simp)
      simp only at hx
      subst hx
      have := numPulled_valid cfg ops realLib rng d' x hx0 hx1 s1 w1
      simp only [List.length_append, List.length_cons, List.length_nil, zero_add]
      simp only at ih'
      rw [this, ih']
  generalize (runUpdates (ssUpdate cfg ops realLib rng) hist (init e0, w0)).2 = st at *
  obtain ⟨s, w⟩ := st
  obtain ⟨⟨δ', hδ', h0, h1⟩, s1, hn, -, hest⟩ := ssUpdate_inv h
  rw [Fl.fin.injEq] at hδ'
  subst hδ'
  have hk : 0 < s1.numPulled := by omega
  have hk' : (s1.numPulled : ℝ) = (hist.length : ℝ) + 1 := by rw [hn]; simp only at hnum; rw [hnum]; push_cast; ring
  rcases clt_shape halg hrep hlen h0 h1 hk hest with ⟨-, rfl, rfl, hv⟩ | ⟨l, f1, e, e', xs, -, -, -, hs, hl, hx, hv, -, rfl, rfl⟩
  · exact Or.inl ⟨rfl, rfl⟩
  · right
    refine ⟨e, e', f1, xs, hs, hl, ?_⟩
    rw [hk', ← hl]
    exact ⟨rfl, rfl⟩

/-- **C27 (violated)** The levels `delta/k^2` of the first `N ≥ 2` updates sum to more than `delta`. -/
theorem C27_spending_violated (δ : ℝ) (h0 : 0 < δ) (N : ℕ) (hN : 2 ≤ N) :
    δ < ∑ k ∈ Finset.range N, δ / ((k : ℝ) + 1) ^ 2 := by
  have h2 : ∑ k ∈ Finset.range 2, δ / ((k : ℝ) + 1) ^ 2 ≤ ∑ k ∈ Finset.range N, δ / ((k : ℝ) + 1) ^ 2 :=
    Finset.sum_le_sum_of_subset_of_nonneg (Finset.range_mono hN) (fun _ _ _ => by positivity)
  have : ∑ k ∈ Finset.range 2, δ / ((k : ℝ) + 1) ^ 2 = δ + δ / 4 := by
    simp [Finset.sum_range_succ]; norm_num
  linarith

/-- **C27 (partial)** The levels of any number of updates sum to at most `delta * pi^2/6` (less than
`1.65 delta`), and that bound is approached.  Missing: the claimed bound `delta` is false. -/
theorem C27_spending_partial (δ : ℝ) (h0 : 0 < δ) :
    (∀ N : ℕ, ∑ k ∈ Finset.range N, δ / ((k : ℝ) + 1) ^ 2 ≤ δ * (Real.pi ^ 2 / 6)) ∧
    Tendsto (fun N : ℕ => ∑ k ∈ Finset.range N, δ / ((k : ℝ) + 1) ^ 2) atTop (𝓝 (δ * (Real.pi ^ 2 / 6))) := by
  have h : HasSum (fun k : ℕ => δ / ((k : ℝ) + 1) ^ 2) (δ * (Real.pi ^ 2 / 6)) := by
    have h1 := (hasSum_nat_add_iff' (f := fun n : ℕ => 1 / (n : ℝ) ^ 2) 1).mpr hasSum_zeta_two
    simp only [Finset.range_one, Finset.sum_singleton, Nat.cast_zero, ne_eq, OfNat.ofNat_ne_zero, not_false_eq_true,
      zero_pow, div_zero, sub_zero] at h1
    have h2 := h1.mul_left δ
    refine h2.congr_fun ?_
    intro k
    push_cast
    ring
  exact ⟨fun N => sum_le_hasSum _ (fun _ _ => by positivity) h, h.tendsto_sum_nat⟩

example : ValidDelta (Fl.fin (1 / 2) : Fl ℝ) := ⟨_, rfl, by norm_num, by norm_num⟩

end Real

/-! ## C28-C30 -/

section Boot
variable {E β α W : Type} [Field α] [LinearOrder α] [IsStrictOrderedRing α] [FloorRing α]

/-- **C28** Every successful update of a `BootstrapArm` whose number of bootstraps `B` (default
`ceil(4/delta)`) is at least one: with `k = floor(delta*B/2)`, the interval is the order statistics `k` and
`B-1-k` (from zero) of the `B` bootstrap variances, both positions exist, and `lcb ≤ ucb` unless the upper
one is NaN. -/
theorem C28_bootstrap_interval (cfg : BootConfig β) (ops : EtaOps E β α) (rng : Rng W α) (d : ExpData β) (δ : α)
    (h0 : 0 < δ) (h1 : δ < 1) (s s' : ArmState E β α) (w w' : W) (lo hi : Fl α)
    (h : bootUpdate cfg ops rng d (.fin δ) (s, w) = (.ok (lo, hi), s', w')) (B : Int)
    (hB : B = if cfg.nBootstraps = 0 then ⌈4 / δ⌉ else cfg.nBootstraps) (hB1 : 1 ≤ B) :
    ∃ (k : Nat) (samples : List (Fl α)), (k : Int) = ⌊δ * B / 2⌋ ∧ k ≤ B.toNat - 1 - k ∧ B.toNat - 1 - k < B.toNat ∧
      samples.length = B.toNat ∧ (∃ st st', bootLoop ops rng B B.toNat st = (.ok samples, st')) ∧
      IsOrderStat samples k lo ∧ IsOrderStat samples (B.toNat - 1 - k) hi ∧ (hi = .nan ∨ lo.le hi = true) ∧
      s'.ci = (some lo, some hi) := by
  rw [bootUpdate_valid cfg ops rng d δ h0 h1] at h
  obtain ⟨_, st, -, h⟩ := bind_inv h
  obtain ⟨B', hB', samples, st1, st2, hl, hlo, hhi, hci⟩ := boot_inv h
  have : B' = B := by rw [hB', hB]
  subst this
  obtain ⟨k, k1, k2, k3, k4⟩ := percentile_idx δ B' h0 h1 hB1
  have hlen := bootLoop_length ops rng B' B'.toNat st1 st2 samples hl
  have hs : (npSort samples).length = B'.toNat := by rw [npSort_length, hlen]
  have i1 : k < (npSort samples).length := by omega
  have i2 : B'.toNat - 1 - k < (npSort samples).length := by omega
  rw [getAt_nat _ _ k k1 i1, Except.ok.injEq] at hlo
  rw [getAt_nat _ _ _ k3 i2, Except.ok.injEq] at hhi
  subst hlo hhi
  refine ⟨k, samples, k4, by omega, by omega, hlen, ⟨st1, st2, hl⟩, isOrderStat_getElem samples k i1, isOrderStat_getElem samples _ i2, ?_, hci⟩
  rcases Nat.lt_or_ge k (B'.toNat - 1 - k) with hlt | hge
  · exact List.pairwise_iff_getElem.mp (npSort_sorted samples) k _ i1 i2 hlt
  · have : B'.toNat - 1 - k = k := by omega
    simp only [this]
    generalize (npSort samples)[k] = x
    cases x <;> simp [Fl.le, Fl.lt, Fl.eq]

/-- **C28** The default number of bootstraps is at least five, for every `delta` in `(0,1)`. -/
theorem C28_default_bootstraps (δ : α) (h0 : 0 < δ) (h1 : δ < 1) : 5 ≤ ⌈4 / δ⌉ := by
  have : (4 : α) < 4 / δ := by rw [lt_div_iff₀ h0]; linarith
  have h4 : (4 : Int) < ⌈4 / δ⌉ := by
    rw [Int.lt_ceil]; exact_mod_cast this
  omega

/-- **C28** The percentile look-ups never fail: when fitting and scoring succeed, `update` with at least one
bootstrap returns an interval. -/
theorem C28_no_index_error (cfg : BootConfig β) (ops : EtaOps E β α) (rng : Rng W α) (d t : ExpData β)
    (ht : cfg.transform d = .ok t) (hwf : t.WF) (s : ArmState E β α) (hr : Ready cfg.stable s t)
    (hfit : ∀ e x, (ops.fit e x).1 = .ok ()) (hscore : ∀ e x, ∃ sc, (ops.score e x).1 = .ok sc)
    (δ : α) (h0 : 0 < δ) (h1 : δ < 1) (hB1 : 0 ≤ cfg.nBootstraps) (w : W) :
    ∃ lo hi, (bootUpdate cfg ops rng d (.fin δ) (s, w)).1 = .ok (lo, hi) := by
  rw [bootUpdate_valid cfg ops rng d δ h0 h1]
  obtain ⟨f0, f1, w', h2, wf0, wf1⟩ := addData_ready (E := E) cfg.transform cfg.stable rng d t ht hwf
    { s with numPulled := s.numPulled + 1, delta := some (.fin δ) } w hr
  rw [Py.bind_ok h2]
  exact boot_total cfg ops rng δ h0 h1 hB1 hfit hscore (C28_default_bootstraps δ h0 h1) _ w' f0 f1 rfl wf0

/-- non-vacuity: four bootstraps, `delta = 1/2`: `k = 1` -/
example : (bootUpdate ⟨.ok, 4, true⟩ demoEta demoRng demo (.fin (1 / 2 : ℚ)) (init 0, 0)).1 = .ok (.fin 0, .fin 4) := by decide +kernel

/-- **C29 (violated)** A `BootstrapArm` always reports zero units, although its folds hold every unit it was
fed: so for every history with a non-empty batch `get_num_units()` is wrong. -/
theorem C29_bootstrap_units_violated (cfg : BootConfig β) (hst : cfg.stable = true) (ops : EtaOps E β α) (rng : Rng W α)
    (T : ExpData β → ExpData β) (hist : List (ExpData β × Fl α)) (hg : GoodHist cfg.transform T hist)
    (hne : ∃ q ∈ hist, 0 < (T q.1).nUnits) (e : E) (w : W) :
    baseNumUnits (runUpdates (bootUpdate cfg ops rng) hist (init e, w)).2.1 = 0 ∧
    ssNumUnits (runUpdates (bootUpdate cfg ops rng) hist (init e, w)).2.1 = (hist.map fun p => (T p.1).nUnits).sum ∧
    baseNumUnits (runUpdates (bootUpdate cfg ops rng) hist (init e, w)).2.1 < (hist.map fun p => (T p.1).nUnits).sum := by
  obtain ⟨assign, h1, h2, -⟩ := run_folds cfg.transform rng (bootUpdate cfg ops rng) T
    (fun d δ s w fs w' hδ h => bootUpdate_files cfg hst ops rng d δ s w fs w' hδ h) hist hg e w
  refine ⟨rfl, ssNumUnits_of_folds T hist assign h1 _ h2, ?_⟩
  obtain ⟨q, hq, hpos⟩ := hne
  have : (T q.1).nUnits ≤ (hist.map fun q => (T q.1).nUnits).sum :=
    List.single_le_sum (by simp) _ (List.mem_map_of_mem hq)
  show 0 < _
  omega

example : ∃ q ∈ [(demo, (Fl.fin (1 / 2) : Fl ℚ)), (demo, .fin (1 / 4))], 0 < (id q.1).nUnits := ⟨(demo, .fin (1 / 2)), by simp, by decide⟩

/-- **C30 (violated)** `VarianceEstimatorArm.update` always raises `AttributeError` and never counts the pull. -/
theorem C30_base_update_violated (d : ExpData β) (delta : Fl α) (s : ArmState E β α) (w : W) :
    (baseUpdate d delta (s, w)).1 = .error .attributeError ∧ (baseUpdate d delta (s, w)).2.1.numPulled = s.numPulled :=
  ⟨rfl, rfl⟩

/-- **C30 (partial)** the default interval `(0, inf)` is recorded, and nothing else changes.
Missing: counting the pull and returning. -/
theorem C30_base_update_partial (d : ExpData β) (delta : Fl α) (s : ArmState E β α) (w : W) :
    (baseUpdate d delta (s, w)).2 = ({ s with ci := (some (.fin 0), some .pinf) }, w) := rfl

example : (baseUpdate demo (.fin (1 / 2 : ℚ)) ((init 0 : ArmState Nat Int ℚ), 0)).2.1.ci = (some (.fin 0), some .pinf) := rfl

end Boot

end Arm
end Verif
