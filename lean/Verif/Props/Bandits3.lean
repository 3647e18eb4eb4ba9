import Verif.Props.Bandits
import Verif.Props.Arms
import Verif.Model.BanditArms

/-!
# Properties C42-C44: stable order, error levels, constructor
-/

set_option linter.unusedSectionVars false
set_option linter.unusedSimpArgs false

namespace Verif
namespace Bandit

variable {I S W β α E : Type} [Field α] [LinearOrder α] [DecidableEq I]

/-! ## C42 -/

/-- **C42** Stable order: in every run of every algorithm, whatever its outcome, each arm has been fed
`all_data[0:u], all_data[u:2u], …` in this order and nothing else.  The arms may be any objects that count their units. -/
theorem C42_stable_order (env : BanditEnv W β) (ops : ArmOps S W β α) (cfg : BanditCfg I α) (all : ExpData β) (hd : all.WF) (Inv : S → Prop)
    (hc : CountsUnits ops all Inv) (hnd : cfg.arms.Nodup) (heap : I → S)
    (hfresh : ∀ a ∈ cfg.arms, Inv (heap a) ∧ ops.numUnits (heap a) = 0) (fuel : Nat) (w : W) :
    ∀ run ∈ [uniformRun env ops.logged cfg (some all) fuel, lucbRun env ops.logged cfg (some all) fuel, seRun env ops.logged cfg (some all) fuel],
      ∀ a ∈ cfg.arms, ∃ p, ((run (startHeap heap, w)).2.1 a).2.map (fun e => Except.ok e.1) =
        (List.range p).map fun k => all.slice (k * cfg.unitsPerRound) ((k + 1) * cfg.unitsPerRound) := by
  obtain ⟨h1, h2, h3⟩ := stable_order env hd hc hnd heap hfresh fuel w
  intro run hrun
  simp only [List.mem_cons, List.not_mem_nil, or_false] at hrun
  rcases hrun with rfl | rfl | rfl
  · exact h1
  · exact h2
  · exact h3

/-- **C42** The log observes a run without changing it: same outcome, same arm states, same world. -/
theorem C42_log_faithful (env : BanditEnv W β) (ops : ArmOps S W β α) (cfg : BanditCfg I α) (all : Option (ExpData β)) (fuel : Nat)
    (heap : I → S) (w : W) :
    (∀ p ∈ [(uniformRun env ops.logged cfg all fuel (startHeap heap, w), uniformRun env ops cfg all fuel (heap, w)),
            (lucbRun env ops.logged cfg all fuel (startHeap heap, w), lucbRun env ops cfg all fuel (heap, w)),
            (seRun env ops.logged cfg all fuel (startHeap heap, w), seRun env ops cfg all fuel (heap, w))],
      p.1.1 = p.2.1 ∧ (∀ a, (p.1.2.1 a).1 = p.2.2.1 a) ∧ p.1.2.2 = p.2.2.2) := by
  have h0 : Unlog (startHeap (β := β) (α := α) heap, w) (heap, w) := ⟨fun _ => rfl, rfl⟩
  intro p hp
  simp only [List.mem_cons, List.not_mem_nil, or_false] at hp
  rcases hp with rfl | rfl | rfl
  · exact sim_uniformRun env ops cfg all fuel _ _ h0
  · exact sim_lucbRun env ops cfg all fuel _ _ h0
  · exact sim_seRun env ops cfg all fuel _ _ h0

/-- What the log says about a deterministic arm. -/
theorem det_log (env : BanditEnv W β) (ops : ArmOps S W β α) (cfg : BanditCfg I α) (all : Option (ExpData β))
    (f : ExpData β → Fl α → S → S) (hdet : Deterministic ops f) (fuel : Nat) (heap : I → S) (w : W) :
    ∀ run ∈ [uniformRun env ops.logged cfg all fuel, lucbRun env ops.logged cfg all fuel, seRun env ops.logged cfg all fuel],
      ∀ a ∈ cfg.arms, (∀ e ∈ ((run (startHeap heap, w)).2.1 a).2, e.2 = level cfg) ∧
        ((run (startHeap heap, w)).2.1 a).1 = ((run (startHeap heap, w)).2.1 a).2.foldl (fun s e => f e.1 (level cfg) s) (heap a) := by
  obtain ⟨h1, h2, h3⟩ := triple_all (fun s : I → S × List (ExpData β × Fl α) => ∀ a ∈ cfg.arms, (∀ e ∈ (s a).2, e.2 = level cfg) ∧
        (s a).1 = (s a).2.foldl (fun s e => f e.1 (level cfg) s) (heap a)) env ops.logged cfg all (by
    intro a ha d s w hP b hb
    by_cases hab : b = a
    · subst hab
      obtain ⟨p1, p2⟩ := hP b hb
      simp only [updateArm, ArmOps.logged, Function.update_self]
      refine ⟨?_, ?_⟩
      · intro e he
        rw [List.mem_append, List.mem_singleton] at he
        rcases he with he | rfl
        · exact p1 e he
        · rfl
      · rw [List.foldl_append, ← p2, hdet]
        rfl
    · simp only [updateArm, Function.update_of_ne hab]
      exact hP b hb) fuel (startHeap heap) w (fun a _ => ⟨by simp [startHeap], rfl⟩)
  intro run hrun
  simp only [List.mem_cons, List.not_mem_nil, or_false] at hrun
  rcases hrun with rfl | rfl | rfl
  · exact h1
  · exact h2
  · exact h3

/-- **C42** For arms whose `update` is deterministic the state of an arm after a stable-order run — hence its interval —
depends only on how often it was pulled: after `p` pulls it is the same state in all algorithms and all runs, for all
behaviours of the other arms, random outcomes and limits. -/
theorem C42_same_sequence (env : BanditEnv W β) (ops : ArmOps S W β α) (cfg : BanditCfg I α) (all : ExpData β) (hd : all.WF) (Inv : S → Prop)
    (hc : CountsUnits ops all Inv) (hnd : cfg.arms.Nodup) (f : ExpData β → Fl α → S → S) (hdet : Deterministic ops f) (heap : I → S)
    (hfresh : ∀ a ∈ cfg.arms, Inv (heap a) ∧ ops.numUnits (heap a) = 0) (fuel : Nat) (w : W) :
    ∀ run ∈ [uniformRun env ops cfg (some all) fuel, lucbRun env ops cfg (some all) fuel, seRun env ops cfg (some all) fuel],
      ∀ a ∈ cfg.arms, ∃ (p : Nat) (ds : List (ExpData β)),
        ds.map Except.ok = (List.range p).map (fun k => all.slice (k * cfg.unitsPerRound) ((k + 1) * cfg.unitsPerRound)) ∧
        (run (heap, w)).2.1 a = ds.foldl (fun s d => f d (level cfg) s) (heap a) := by
  have hs := C42_stable_order env ops cfg all hd Inv hc hnd heap hfresh fuel w
  have hl := C42_log_faithful env ops cfg (some all) fuel heap w
  have hdl := det_log env ops cfg (some all) f hdet fuel heap w
  have fin : ∀ (run : Py ((I → S) × W) (Option (BanditData I α))) (run' : Py ((I → S × List (ExpData β × Fl α)) × W) (Option (BanditData I α))),
      (∀ a ∈ cfg.arms, ∃ p, ((run' (startHeap heap, w)).2.1 a).2.map (fun e => Except.ok e.1) =
        (List.range p).map fun k => all.slice (k * cfg.unitsPerRound) ((k + 1) * cfg.unitsPerRound)) →
      (∀ a, ((run' (startHeap heap, w)).2.1 a).1 = (run (heap, w)).2.1 a) →
      (∀ a ∈ cfg.arms, (∀ e ∈ ((run' (startHeap heap, w)).2.1 a).2, e.2 = level cfg) ∧
        ((run' (startHeap heap, w)).2.1 a).1 = ((run' (startHeap heap, w)).2.1 a).2.foldl (fun s e => f e.1 (level cfg) s) (heap a)) →
      ∀ a ∈ cfg.arms, ∃ (p : Nat) (ds : List (ExpData β)),
        ds.map Except.ok = (List.range p).map (fun k => all.slice (k * cfg.unitsPerRound) ((k + 1) * cfg.unitsPerRound)) ∧
        (run (heap, w)).2.1 a = ds.foldl (fun s d => f d (level cfg) s) (heap a) := by
    intro run run' h1 h2 h3 a ha
    obtain ⟨p, hp⟩ := h1 a ha
    refine ⟨p, ((run' (startHeap heap, w)).2.1 a).2.map (·.1), ?_, ?_⟩
    · rw [List.map_map]; exact hp
    · rw [← h2, (h3 a ha).2, List.foldl_map]
  intro run hrun
  simp only [List.mem_cons, List.not_mem_nil, or_false] at hrun
  rcases hrun with rfl | rfl | rfl
  · exact fin _ (uniformRun env ops.logged cfg (some all) fuel) (hs _ (.head _)) (hl (_, _) (.head _)).2.1 (hdl _ (.head _))
  · exact fin _ (lucbRun env ops.logged cfg (some all) fuel) (hs _ (.tail _ (.head _))) (hl (_, _) (.tail _ (.head _))).2.1 (hdl _ (.tail _ (.head _)))
  · exact fin _ (seRun env ops.logged cfg (some all) fuel) (hs _ (.tail _ (.tail _ (.head _)))) (hl (_, _) (.tail _ (.tail _ (.head _)))).2.1
      (hdl _ (.tail _ (.tail _ (.head _))))

/-- The running example arm counts its units and is deterministic. -/
theorem script_counts (all : ExpData Int) : CountsUnits scriptOps all (fun _ => True) := by
  intro s w i j d δ r s' w' _ _ h
  simp only [scriptOps, Prod.mk.injEq] at h
  obtain ⟨-, rfl, -⟩ := h
  exact ⟨trivial, rfl⟩

theorem script_deterministic :
    Deterministic scriptOps (fun d _ s => (if 2 ≤ s.1.length then s.1.tail else s.1, s.2 + d.nUnits)) := fun _ _ _ _ => rfl

/-- non-vacuity: the running example in stable order on seven units: arm 1 receives `0:2, 2:4, 4:6`, under LUCB and Uniform -/
example : ((((uniformRun demoEnv scriptOps.logged (demoBandit 100) (some (plainData 7)) 10 (startHeap demoHeap, 0)).2.1 1).2.map (·.1.nUnits)) = [2, 2, 2] ∧
    (((lucbRun demoEnv scriptOps.logged (demoBandit 100) (some (plainData 7)) 10 (startHeap demoHeap, 0)).2.1 1).2.map (·.1.nUnits)) = [2, 2, 2]) ∧
    (demoBandit 100).arms.Nodup ∧ ∀ a ∈ (demoBandit 100).arms, scriptOps.numUnits (demoHeap a) = 0 := by
  refine ⟨by decide +kernel, by decide, by decide⟩

/-- **C42** The hypothesis on arms holds for a `SampleSplittingArm` that keeps its data (`sample_in_stable_order`-style
accumulation), when its transformer keeps the units of every slice of the data and yields data sets of one kind. -/
theorem C42_sample_splitting_counts (cfg : SSConfig β α) (hst : cfg.stable = true) (eops : EtaOps E β α) (lib : Libm α) (rng : Rng W α) (cost : Fl α)
    (all ref : ExpData β) (ht : ∀ i j d, all.slice i j = .ok d →
      ∃ t, cfg.transform d = .ok t ∧ t.WF ∧ t.nUnits = d.nUnits ∧ ExpData.SameKind ref t) :
    CountsUnits (ssArmOps cfg eops lib rng cost) all (fun s => s.split = none ∨
      ∃ a b : ExpData β, s.split = some [a, b] ∧ a.WF ∧ b.WF ∧ ExpData.SameKind ref a ∧ ExpData.SameKind ref b) := by
  intro s w i j d δ r s' w' hinv hs hu
  obtain ⟨t, t1, t2, t3, t4⟩ := ht i j d hs
  have hδ : ValidDelta δ := by
    by_contra hn
    have := Arm.ssUpdate_invalid cfg eops lib rng d δ hn (s, w)
    rw [show (ssArmOps cfg eops lib rng cost).update = Arm.ssUpdate cfg eops lib rng from rfl, this] at hu
    simp at hu
  have hu' : Arm.ssUpdate cfg eops lib rng d δ (s, w) = (.ok r, s', w') := hu
  suffices h : ∃ f0 f1 : ExpData β, s'.split = some [f0, f1] ∧ f0.WF ∧ f1.WF ∧ ExpData.SameKind ref f0 ∧ ExpData.SameKind ref f1 ∧
      f0.nUnits + f1.nUnits = Arm.ssNumUnits s + t.nUnits by
    obtain ⟨f0, f1, h1, h2, h3, h4, h5, h6⟩ := h
    refine ⟨Or.inr ⟨f0, f1, h1, h2, h3, h4, h5⟩, ?_⟩
    show Arm.ssNumUnits s' = Arm.ssNumUnits s + d.nUnits
    rw [← t3, ← h6]
    simp [Arm.ssNumUnits, h1]
  rcases hinv with h0 | ⟨a, b, h0, wa, wb, ka, kb⟩
  · obtain ⟨f0, f1, I', J', w1, h1, h2, h3, h4, h5, h6, h7, h8⟩ := Arm.addData_set (E := E) cfg.transform cfg.stable rng d t t1 t2
      { s with numPulled := s.numPulled + 1, delta := some δ } w (Or.inl h0)
    have := (Arm.ssUpdate_after cfg eops lib rng d δ hδ s w w1 (some [f0, f1]) h1).2.1
    rw [hu'] at this
    refine ⟨f0, f1, this, h3, h4, t4.trans h5, t4.trans h6, ?_⟩
    have e := h2.length_eq
    simp only [List.length_append, List.length_range] at e
    have e0 : f0.nUnits = I'.length := by rw [← ExpData.units_length, h7, List.length_map]
    have e1 : f1.nUnits = J'.length := by rw [← ExpData.units_length, h8, List.length_map]
    have e2 : Arm.ssNumUnits s = 0 := by simp [Arm.ssNumUnits, h0]
    omega
  · obtain ⟨f0, f1, I', J', w1, h1, h2, h3, h4, h5, h6, h7, h8⟩ := Arm.addData_append (E := E) cfg.transform rng d t t1 t2
      { s with numPulled := s.numPulled + 1, delta := some δ } w a b h0 wa wb (t4.symm.trans ka) (t4.symm.trans kb)
    rw [← hst] at h1
    have := (Arm.ssUpdate_after cfg eops lib rng d δ hδ s w w1 (some [f0, f1]) h1).2.1
    rw [hu'] at this
    refine ⟨f0, f1, this, h3, h4, t4.trans h5, t4.trans h6, ?_⟩
    have e := h2.length_eq
    simp only [List.length_append, List.length_range] at e
    have e0 : f0.nUnits = a.nUnits + I'.length := by rw [← ExpData.units_length, h7, List.length_append, List.length_map, ExpData.units_length]
    have e1 : f1.nUnits = b.nUnits + J'.length := by rw [← ExpData.units_length, h8, List.length_append, List.length_map, ExpData.units_length]
    have e2 : Arm.ssNumUnits s = a.nUnits + b.nUnits := by simp [Arm.ssNumUnits, h0]
    omega

/-- non-vacuity: the identity transformer satisfies the hypothesis on well-formed data -/
example (all : ExpData β) (hd : all.WF) : ∀ i j d, all.slice i j = .ok d →
    ∃ t, ExpData.identityFn d = .ok t ∧ t.WF ∧ t.nUnits = d.nUnits ∧ ExpData.SameKind all t := by
  intro i j d h
  have hp := ExpData.pick_isSelection all hd (ExpData.sliceIdx all.nUnits i j) (fun i hi => ExpData.mem_sliceIdx_lt hi)
  rw [ExpData.slice_eq_pick all hd] at h
  cases h
  exact ⟨_, rfl, hp.wf, rfl, hp.kind⟩

/-- Two bootstrap arms at the start. -/
def bootHeap : Nat → ArmState Nat Int ℚ := fun _ => Arm.init 0

/-- The worlds of the example environments. -/
def bootEnv : BanditEnv Nat Int := demoEnv

/-- **C42 (violated)** A `BootstrapArm` reports zero units forever, so in stable order it is fed the *first* batch again
and again: whatever the state, the next batch is `all_data[0:u]`; e.g. Uniform feeds the same two units twice. -/
theorem C42_bootstrap_violated [IsStrictOrderedRing α] [FloorRing α] (bcfg : BootConfig β) (eops : EtaOps E β α) (rng : Rng W α) (cost : Fl α)
    (env : BanditEnv W β) (all : ExpData β) (u : Nat) (a : I) (heap : I → ArmState E β α) (w : W) :
    samplesFor env (bootArmOps bcfg eops rng cost) (some all) u a (heap, w) = (all.slice 0 u, heap, w) ∧
    ((uniformRun bootEnv (bootArmOps ⟨.ok, 4, true⟩ Arm.demoEta Arm.demoRng (.fin 1)).logged ⟨[0, 1], .fin (1 / 2), .fin 0, none, some (.fin 19), 5⟩
        (some ExpData.demo) 10 (startHeap bootHeap, 0)).2.1 0).2.map (·.1) = [ExpData.demo, ExpData.demo] := by
  refine ⟨?_, by decide +kernel⟩
  simp [samplesFor, nextSlice, bootArmOps, Arm.baseNumUnits]

/-! ## C43 -/

theorem log_levels (env : BanditEnv W β) (ops : ArmOps S W β α) (cfg : BanditCfg I α) (all : Option (ExpData β)) (fuel : Nat) (heap : I → S) (w : W) :
    ∀ run ∈ [uniformRun env ops.logged cfg all fuel, lucbRun env ops.logged cfg all fuel, seRun env ops.logged cfg all fuel],
      ∀ a, ∀ e ∈ ((run (startHeap heap, w)).2.1 a).2, e.2 = level cfg := by
  obtain ⟨h1, h2, h3⟩ := triple_all (fun s : I → S × List (ExpData β × Fl α) => ∀ a, ∀ e ∈ (s a).2, e.2 = level cfg) env ops.logged cfg all (by
    intro a ha d s w hP b
    by_cases hab : b = a
    · subst hab
      simp only [updateArm, ArmOps.logged, Function.update_self]
      intro e he
      rw [List.mem_append, List.mem_singleton] at he
      rcases he with he | rfl
      · exact hP b e he
      · rfl
    · simp only [updateArm, Function.update_of_ne hab]
      exact hP b) fuel (startHeap heap) w (by simp [startHeap])
  intro run hrun
  simp only [List.mem_cons, List.not_mem_nil, or_false] at hrun
  rcases hrun with rfl | rfl | rfl
  · exact h1
  · exact h2
  · exact h3

/-- **C43** In every run of every algorithm of a constructed bandit with at least one arm, every update uses the level
`error_prob / number_of_arms`; it lies in `(0,1)`, and over all arms the levels sum to `error_prob`. -/
theorem C43_levels [IsStrictOrderedRing α] (arms : List I) (errorProb errorTol confidence sampleLimit : Option (Fl α)) (units : Nat)
    (cfg : BanditCfg I α) (hcons : construct arms errorProb errorTol confidence sampleLimit units = .ok cfg) (hne : arms ≠ [])
    (env : BanditEnv W β) (ops : ArmOps S W β α) (all : Option (ExpData β)) (fuel : Nat) (heap : I → S) (w : W) :
    ∃ p δ : α, errorProb = some (.fin p) ∧ δ = p / arms.length ∧ 0 < δ ∧ δ < 1 ∧ (arms.map fun _ => δ).sum = p ∧
      ∀ run ∈ [uniformRun env ops.logged cfg all fuel, lucbRun env ops.logged cfg all fuel, seRun env ops.logged cfg all fuel],
        ∀ a, ∀ e ∈ ((run (startHeap heap, w)).2.1 a).2, e.2 = .fin δ := by
  have hlen : 0 < arms.length := List.length_pos_iff.mpr hne
  have hpos : (0 : α) < arms.length := by exact_mod_cast hlen
  have hone : (1 : α) ≤ arms.length := by exact_mod_cast hlen
  have hkey : ∃ p : α, errorProb = some (.fin p) ∧ 0 < p ∧ p < 1 ∧ cfg.errorProb = .fin p ∧ cfg.arms = arms := by
    unfold construct at hcons
    rcases errorProb with _ | q
    · simp at hcons
    dsimp only at hcons
    split at hcons
    · simp at hcons
    rename_i hq
    cases q with
    | nan => simp [Fl.lt] at hq
    | ninf => simp [Fl.lt] at hq
    | pinf => simp [Fl.lt] at hq
    | fin p =>
      simp [Fl.lt] at hq
      refine ⟨p, rfl, hq.1, hq.2, ?_⟩
      rcases errorTol with _ | t
      · simp at hcons
      dsimp only at hcons
      split at hcons
      · simp at hcons
      rcases confidence with _ | c
      · rcases sampleLimit with _ | l
        · simp at hcons
        dsimp only at hcons
        split at hcons
        · simp at hcons
        cases hcons; exact ⟨rfl, rfl⟩
      · dsimp only at hcons
        split at hcons
        · simp at hcons
        cases hcons; exact ⟨rfl, rfl⟩
  obtain ⟨p, hp, h0, h1, hcp, harms⟩ := hkey
  refine ⟨p, p / arms.length, hp, rfl, div_pos h0 hpos, ?_, ?_, ?_⟩
  · rw [div_lt_one hpos]; linarith
  · rw [List.map_const', List.sum_replicate, nsmul_eq_mul]
    field_simp
  · intro run hrun a e he
    rw [log_levels env ops cfg all fuel heap w run hrun a e he, level, hcp, harms]
    simp [Fl.div, hlen.ne']

/-- non-vacuity: the configuration of the running example is constructible; some updates take place -/
example : construct [0, 1, 2] (some (.fin (1 / 10 : ℚ))) (some (.fin 0)) (some (.fin (9 / 10))) (some (.fin 100)) 2 = .ok (demoBandit 100) ∧
    (((lucbRun demoEnv scriptOps.logged (demoBandit 100) none 10 (startHeap demoHeap, 0)).2.1 1).2.map (·.2)) = [.fin (1 / 30), .fin (1 / 30), .fin (1 / 30)] := by
  refine ⟨by norm_num [construct, Fl.lt, Fl.isInf, demoBandit], by decide +kernel⟩

/-- **C43** The levels are accepted by the arms: `update` of a `SampleSplittingArm` does not raise because of them, the
number of pulls goes up. -/
theorem C43_accepted [IsStrictOrderedRing α] (cfg : SSConfig β α) (eops : EtaOps E β α) (lib : Libm α) (rng : Rng W α) (d : ExpData β) (p : α)
    (n : Nat) (h0 : 0 < p) (h1 : p < 1) (hn : 0 < n) (s : ArmState E β α) (w : W) :
    (Arm.ssUpdate cfg eops lib rng d ((Fl.fin p).div (.fin (n : α))) (s, w)).2.1.numPulled = s.numPulled + 1 := by
  have hpos : (0 : α) < n := by exact_mod_cast hn
  have hone : (1 : α) ≤ n := by exact_mod_cast hn
  have : (Fl.fin p).div (.fin (n : α)) = .fin (p / n) := by simp [Fl.div, hpos.ne']
  rw [this]
  exact Arm.numPulled_valid cfg eops lib rng d _ (div_pos h0 hpos) (by rw [div_lt_one hpos]; linarith) s w

/-! ## C44 -/

/-- **C44** The constructor succeeds exactly on these arguments, and then stores them unchanged. -/
theorem C44_constructor (arms : List I) (errorProb errorTol confidence sampleLimit : Option (Fl α)) (units : Nat) (cfg : BanditCfg I α) :
    construct arms errorProb errorTol confidence sampleLimit units = .ok cfg ↔
      ∃ p t, errorProb = some p ∧ ValidDelta p ∧ errorTol = some t ∧ t.lt (.fin 0) = false ∧
        (∀ c, confidence = some c → ValidDelta c) ∧
        (confidence = none → ∃ l, sampleLimit = some l ∧ l ≠ .pinf ∧ l ≠ .ninf) ∧
        cfg = ⟨arms, p, t, confidence, sampleLimit, units⟩ := by
  have hv : ∀ x : Fl α, ((Fl.fin 0).lt x && x.lt (Fl.fin 1)) = true ↔ ValidDelta x := Arm.deltaOk_iff
  have hi : ∀ x : Fl α, x.isInf = false ↔ x ≠ .pinf ∧ x ≠ .ninf := by intro x; cases x <;> simp [Fl.isInf]
  unfold construct
  rcases errorProb with _ | p
  · simp
  dsimp only
  by_cases hp : ValidDelta p
  · have hp' := (hv p).mpr hp
    simp only [hp', Bool.not_true, Bool.false_eq_true, if_false]
    rcases errorTol with _ | t
    · simp
    dsimp only
    cases ht : t.lt (.fin 0) with
    | true => simp [ht]
    | false =>
      simp only [Bool.false_eq_true, if_false]
      rcases confidence with _ | c
      · rcases sampleLimit with _ | l
        · simp
        · dsimp only
          cases hl : l.isInf with
          | true =>
            have : ¬ (l ≠ .pinf ∧ l ≠ .ninf) := by rw [← hi, hl]; simp
            simp only [if_true, reduceCtorEq, false_iff]
            rintro ⟨_, _, -, -, -, -, -, h, -⟩
            obtain ⟨l', h1, h2⟩ := h (by trivial)
            cases h1
            exact this h2
          | false =>
            have := (hi l).mp hl
            simp only [Bool.false_eq_true, if_false, Except.ok.injEq]
            constructor
            · rintro rfl
              exact ⟨p, t, rfl, hp, rfl, ht, by simp, fun _ => ⟨l, rfl, this⟩, rfl⟩
            · rintro ⟨p', t', h1, -, h2, -, -, -, h3⟩
              cases h1; cases h2; exact h3.symm
      · dsimp only
        by_cases hc : ValidDelta c
        · simp only [(hv c).mpr hc, Bool.not_true, Bool.false_eq_true, if_false, Except.ok.injEq]
          constructor
          · rintro rfl
            exact ⟨p, t, rfl, hp, rfl, ht, by rintro _ ⟨⟩; exact hc, by simp, rfl⟩
          · rintro ⟨p', t', h1, -, h2, -, -, -, h3⟩
            cases h1; cases h2; exact h3.symm
        · have hc' : ((Fl.fin 0).lt c && c.lt (Fl.fin 1)) = false := by rw [← Bool.not_eq_true, hv]; exact hc
          simp only [hc', Bool.not_false, if_true, reduceCtorEq, false_iff]
          rintro ⟨_, _, -, -, -, -, h, -⟩
          exact hc (h c rfl)
  · have hp' : ((Fl.fin 0).lt p && p.lt (Fl.fin 1)) = false := by rw [← Bool.not_eq_true, hv]; exact hp
    simp only [hp', Bool.not_false, if_true, reduceCtorEq, false_iff]
    rintro ⟨_, _, h, hp2, -⟩
    cases h; exact hp hp2

example : construct [0] (some (.fin (1 / 20 : ℚ))) (some (.fin 0)) none (some (.fin 7)) 10 = .ok ⟨[0], .fin (1 / 20), .fin 0, none, some (.fin 7), 10⟩ ∧
    construct [0] (some (.fin (1 / 20 : ℚ))) (some (.fin (-1))) none (some (.fin 7)) 10 = .error .valueError :=
  ⟨by norm_num [construct, Fl.lt, Fl.isInf], by norm_num [construct, Fl.lt, Fl.isInf]⟩

/-- **C44 (violated)** With the defaults of `LUCBAlgorithm` and `SuccessiveEliminationAlgorithm` (`confidence=None`,
`sample_limit=None`, bandits.py 277-278, 434-435) the constructor raises `TypeError`, for all other arguments that are valid. -/
theorem C44_defaults_violated (arms : List I) (p t : Fl α) (hp : ValidDelta p) (ht : t.lt (.fin 0) = false) (units : Nat) :
    construct arms (some p) (some t) none none units = .error .typeError := by
  have hp' : ((Fl.fin 0).lt p && p.lt (Fl.fin 1)) = true := (Arm.deltaOk_iff p).mpr hp
  simp [construct, hp', ht]

/-- **C44 (violated)** A bandit with a confidence but `sample_limit=None` is constructed without complaint, but every run
raises: Uniform and LUCB always, successive elimination whenever there are two arms. -/
theorem C44_no_limit_violated (cfg : BanditCfg I α) (hL : cfg.sampleLimit = none) (env : BanditEnv W β) (ops : ArmOps S W β α)
    (all : Option (ExpData β)) (fuel : Nat) (hf : 1 ≤ fuel) (s : (I → S) × W) :
    (∃ e s', uniformRun env ops cfg all fuel s = (.error e, s')) ∧ (∃ e s', lucbRun env ops cfg all fuel s = (.error e, s')) ∧
    (2 ≤ cfg.arms.length → ∃ s', seRun env ops cfg all fuel s = (.error .typeError, s')) := by
  obtain ⟨n, rfl⟩ : ∃ n, fuel = n + 1 := ⟨fuel - 1, by omega⟩
  have hno : ∀ t b, overLimit cfg t ≠ .ok b := by intro t b; simp [overLimit, hL]
  refine ⟨?_, ?_, ?_⟩
  · rcases hres : uniformRun env ops cfg all (n + 1) s with ⟨r, s'⟩
    cases r with
    | error e => exact ⟨e, s', rfl⟩
    | ok o =>
      exfalso
      unfold uniformRun Py.loop at hres
      replace hres := Arm.bind_inv hres; obtain ⟨x, s1, e1, -⟩ := hres
      unfold uniformRound at e1
      replace e1 := Arm.bind_inv e1; obtain ⟨d, s2, -, e1⟩ := e1
      replace e1 := Arm.bind_inv e1; obtain ⟨h, s3, -, e1⟩ := e1
      replace e1 := Arm.bind_inv e1; obtain ⟨b, s4, e4, -⟩ := e1
      exact hno _ _ (lift_ok e4).1
  · rcases hres : lucbRun env ops cfg all (n + 1) s with ⟨r, s'⟩
    cases r with
    | error e => exact ⟨e, s', rfl⟩
    | ok o =>
      exfalso
      unfold lucbRun at hres
      replace hres := Arm.bind_inv hres; obtain ⟨d, s2, -, hres⟩ := hres
      replace hres := Arm.bind_inv hres; obtain ⟨h, s3, -, hres⟩ := hres
      unfold Py.loop at hres
      replace hres := Arm.bind_inv hres; obtain ⟨x, s1, e1, -⟩ := hres
      unfold lucbRound at e1
      replace e1 := Arm.bind_inv e1; obtain ⟨b, s4, e4, -⟩ := e1
      exact hno _ _ (lift_ok e4).1
  · intro h2
    refine ⟨s, ?_⟩
    unfold seRun Py.loop
    have : seRound env ops cfg all (Hist.empty, cfg.arms) s = (.error .typeError, s) := by
      unfold seRound
      rw [if_neg (by dsimp only; omega)]
      rw [Py.bind_error (show Py.lift (overLimit cfg _) s = (.error .typeError, s) from by simp [overLimit, hL]; rfl)]
    rw [Py.bind_error this]

example : construct [0, 1] (some (.fin (1 / 20 : ℚ))) (some (.fin 0)) (some (.fin (1 / 2))) none 10 =
    .ok ⟨[0, 1], .fin (1 / 20), .fin 0, some (.fin (1 / 2)), none, 10⟩ := by
  norm_num [construct, Fl.lt, Fl.isInf]

/-- **C44 (violated)** `sample_limit = NaN` is accepted although it is not a limit: no number of samples exceeds it. -/
theorem C44_nan_limit_violated (arms : List I) (p t : Fl α) (hp : ValidDelta p) (ht : t.lt (.fin 0) = false) (units : Nat) :
    ∃ cfg : BanditCfg I α, construct arms (some p) (some t) none (some .nan) units = .ok cfg ∧ ∀ total, overLimit cfg total = .ok false := by
  refine ⟨⟨arms, p, t, none, some .nan, units⟩, ?_, fun total => rfl⟩
  rw [C44_constructor]
  exact ⟨p, t, rfl, hp, rfl, ht, by simp, fun _ => ⟨.nan, rfl, by simp, by simp⟩, rfl⟩

/-- **C44 (partial)** With a sample limit given, the limit test of a constructed bandit never raises. -/
theorem C44_run_partial (cfg : BanditCfg I α) (L : Fl α) (hL : cfg.sampleLimit = some L) (total : Nat) :
    overLimit cfg total = .ok (L.lt (.fin (total : α))) := by
  simp [overLimit, hL]

end Bandit
end Verif
