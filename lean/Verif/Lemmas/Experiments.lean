import Verif.Spec.Experiments
import Verif.Lemmas.PaperData
import Verif.Props.SafeData
import Verif.Props.Plotting

/-!
# Lemmas on the experiments of the notebook
-/

set_option linter.unusedSectionVars false
set_option linter.unusedSimpArgs false

namespace Verif
namespace Bandit
open Plotting
section
variable {I S W β : Type} [DecidableEq I] {env : BanditEnv W β} {ops : ArmOps S W β ℝ} {cfg : BanditCfg I ℝ} {all : Option (ExpData β)} {fuel : Nat}
  {heap : I → S} {w : W} {bd : BanditData I ℝ} {s' : (I → S) × W} {l : ℝ}

theorem lucb_counts (hnd : cfg.arms.Nodup) (h2 : 2 ≤ cfg.arms.length) (hL : cfg.sampleLimit = some (.fin l)) (hl : 0 ≤ l)
    (hr : lucbRun env ops cfg all fuel (heap, w) = (.ok (some bd), s')) :
    ∃ c : Nat, reportedSamples bd = .ok c ∧ cfg.arms.length * cfg.unitsPerRound ≤ c ∧ (c : ℝ) ≤ l + ((cfg.arms.length * cfg.unitsPerRound : Nat) : ℝ) := by
  obtain ⟨r0, rs, L, h⟩ := lucb_master hnd hr
  have hlast : bd.cum.getLast? = some (cfg.arms.length * cfg.unitsPerRound + rs.length * (2 * cfg.unitsPerRound)) := by
    rw [h.cum, getLast?_range_map _ _ (by omega)]
    simp
  refine ⟨_, (by simp only [reportedSamples, Plotting.lastOf, hlast] : _ = Except.ok (cfg.arms.length * cfg.unitsPerRound + rs.length * (2 * cfg.unitsPerRound))), Nat.le_add_right _ _, ?_⟩
  have := (C33_within_one_round hnd hL hl).2.1 hr _ (List.mem_of_getLast? hlast)
  rwa [max_eq_left h2] at this

theorem se_counts (hnd : cfg.arms.Nodup) (h2 : 2 ≤ cfg.arms.length) (hL : cfg.sampleLimit = some (.fin l)) (hl : 0 ≤ l)
    (hr : seRun env ops cfg all fuel (heap, w) = (.ok (some bd), s')) :
    ∃ c m : Nat, reportedSamples bd = .ok c ∧ reportedUniform cfg.arms bd = .ok (m * (cfg.arms.length * cfg.unitsPerRound)) ∧
      cfg.arms.length * cfg.unitsPerRound ≤ c ∧ c ≤ m * (cfg.arms.length * cfg.unitsPerRound) ∧ (c : ℝ) ≤ l + ((cfg.arms.length * cfg.unitsPerRound : Nat) : ℝ) := by
  obtain ⟨rs, h⟩ := se_master hnd hr
  have hrs : rs ≠ [] := by
    rintro rfl
    rcases h.exit with ⟨h1, ⟨-, h3⟩ | ⟨r, h3, -⟩⟩ | ⟨-, ⟨L, h3, h4⟩, -⟩
    · rw [h3] at h1; omega
    · simp at h3
    · rw [hL] at h3; cases h3
      simp [samplesAfter, Fl.lt] at h4
      linarith
  have hlen : rs.length ≠ 0 := by simpa using hrs
  have hlast : bd.cum.getLast? = some (samplesAfter cfg.unitsPerRound rs (rs.length - 1 + 1)) := by
    rw [h.cum, getLast?_range_map _ _ hlen]
  have hne : bd.cum ≠ [] := by
    intro e; rw [e] at hlast; cases hlast
  obtain ⟨c, e1, e2, e3, -⟩ := C83_uniform_count hnd hr hne
  have hc : c = samplesAfter cfg.unitsPerRound rs (rs.length - 1 + 1) := by
    simp only [reportedSamples, Plotting.lastOf, hlast] at e1
    exact (Except.ok.inj e1).symm
  refine ⟨c, _, e1, e2, ?_, e3, ?_⟩
  · rw [hc]
    obtain ⟨r, rs', rfl⟩ : ∃ r rs', rs = r :: rs' := by
      cases rs with
      | nil => exact absurd rfl hrs
      | cons r rs' => exact ⟨r, rs', rfl⟩
    simp only [samplesAfter, List.take_succ_cons, List.map_cons, List.sum_cons, h.chain.first r rfl]
    omega
  · exact (C33_within_one_round hnd hL hl).2.2 hr c (by rw [hc]; exact List.mem_of_getLast? hlast)

end
end Bandit

namespace PaperBandits
open Section5 Arm Paper Bandit Plotting
variable {R K F W M P : Type}

theorem keepEta_gapValue (sk : Sklearn M P) (hcl : CleanClones sk) (rng : Rng W ℝ) (temp : ExpData (Cell ℝ)) (o : Obj M P) :
    Py.Frame (KeepEta (W := W) (etaOps sk)) (gapValue (etaOps sk) rng temp o) := by
  have hr := etaOps_resetLaws sk hcl.ridge hcl.logistic
  have R := KeepEta.refl (W := W) (etaOps sk)
  unfold gapValue
  refine Py.Frame.bind (KeepEta.trans _) ?_ fun folds => Py.Frame.bind (KeepEta.trans _) (Py.Frame.lift R _) fun f0 =>
    Py.Frame.bind (KeepEta.trans _) (fun s => hr.fit s.1.eta f0) fun _ => Py.Frame.bind (KeepEta.trans _) (Py.Frame.lift R _) fun f1 =>
    Py.Frame.bind (KeepEta.trans _) (fun s => hr.score s.1.eta f1) fun _ => Py.Frame.pure R _
  rintro ⟨s, w⟩
  unfold transformAndFold
  dsimp only
  split <;> rfl

theorem armGap_descends (sk : Sklearn M P) (hcl : CleanClones sk) (rng : Rng W ℝ) (temp : ExpData (Cell ℝ)) (a : Nat) (h : Nat → Obj M P) (w : W)
    (heap0 : Nat → Obj M P) (hd : ∀ b, Descends (etaOps sk) (heap0 b) (h b)) (b : Nat) :
    Descends (etaOps sk) (heap0 b) ((armGap (etaOps sk) rng temp a (h, w)).2.1 b) := by
  unfold armGap
  by_cases hb : b = a
  · subst hb
    obtain ⟨h1, h2, h3⟩ := hd b
    simp only [Function.update_self]
    refine ⟨h1, h2, ?_⟩
    rw [← h3]
    exact Eq.trans (keepEta_gapValue sk hcl rng temp (h b) (Arm.reset (etaOps sk) (h b).st, w)) ((etaOps_resetLaws sk hcl.ridge hcl.logistic).reset _)
  · simp only [Function.update_of_ne hb]
    exact hd b

theorem Reached.descends {sk : Sklearn M P} (hcl : CleanClones sk) {rng : Rng W ℝ} {heap0 h : Nat → Obj M P}
    (hh : Reached sk (objOps (etaOps sk) realLib rng) rng heap0 h) : ∀ b, Descends (etaOps sk) (heap0 b) (h b) := by
  have hr := resettable_obj (etaOps sk) (etaOps_resetLaws sk hcl.ridge hcl.logistic) realLib rng
  induction hh with
  | new => exact fun _ => hr.refl _
  | calls cs w _ ih => exact fun b => exec_descends hr heap0 cs _ w ih b
  | gap temp a w _ ih => exact fun b => armGap_descends sk hcl rng temp a _ w heap0 ih b

section
variable {sk : Sklearn M P} {alg : CIAlgorithm} {subG : Fl ℝ} {specs : List (ArmSpec ℝ)} {k : Nat} {l : ℝ} {units : Nat} {ex : Example W M P}

/-- after a reset, the arms of a reachable state are like new ones -/
theorem Runnable.core (h : Runnable sk alg subG specs k l units ex) (hcl : CleanClones sk) (rng : Rng W ℝ) (o : Obj M P) {heap : Nat → Obj M P}
    (hh : Reached sk (objOps (etaOps sk) realLib rng) rng (heapOf o ex.arms) heap) (cfg : BanditCfg Nat ℝ) (hcfg : cfg.arms = List.range specs.length) :
    let ops := objOps (etaOps sk) realLib rng
    ∀ a ∈ cfg.arms, ObjCore (Bandit.reset ops cfg heap a) (heapOf o ex.arms a) ∧
      ops.varEst (Bandit.reset ops cfg heap a) = none ∧ ops.varEst (heapOf o ex.arms a) = none := by
  intro ops a hmem
  have hr := resettable_obj (etaOps sk) (etaOps_resetLaws sk hcl.ridge hcl.logistic) realLib rng
  have hd := hh.descends hcl
  obtain ⟨s', h1, h4⟩ := foldl_reset_mem ops (fun a s => Descends (etaOps sk) (heapOf o ex.arms a) s) (fun a s hs => hr.reset _ s hs) cfg.arms heap hd a hmem
  have h' : a < specs.length := by rw [hcfg] at hmem; simpa using hmem
  have hfr := fresh_obj (etaOps sk) realLib rng (o := heapOf o ex.arms a) (e := newEta sk specs[a]) (by simp [heapOf, h.arms_eq, h', newArm])
    (newEta_fresh sk hcl.ridge0 hcl.logistic0 _)
  unfold Bandit.reset
  rw [h4]
  exact ⟨hfr.1 s' h1, hr.varEst _, hfr.2⟩

theorem Runnable.ready (h : Runnable sk alg subG specs k l units ex) (hcl : CleanClones sk) (rng : Rng W ℝ) (o : Obj M P) {heap : Nat → Obj M P}
    (hh : Reached sk (objOps (etaOps sk) realLib rng) rng (heapOf o ex.arms) heap) (cfg : BanditCfg Nat ℝ) (hcfg : cfg.arms = List.range specs.length) :
    let ops := objOps (etaOps sk) realLib rng
    ∀ a ∈ List.range specs.length, ArmIs sk alg subG specs a (Bandit.reset ops cfg heap a) ∧ ops.numUnits (Bandit.reset ops cfg heap a) = 0 := by
  intro ops a ha
  have ha' : a < specs.length := by simpa using ha
  obtain ⟨⟨c1, c2, c3, c4, c5⟩, -⟩ := h.core hcl rng o hh cfg hcfg a (by rw [hcfg]; exact ha)
  have hnew := armIs_new (sk := sk) (alg := alg) (subG := subG) h.good o a ha'
  rw [← h.arms_eq] at hnew
  have hsp : (heapOf o ex.arms a).st.split = none := by simp [heapOf, h.arms_eq, ha', newArm, Arm.init]
  refine ⟨?_, ?_⟩
  · obtain ⟨s, e1, e2, e3, e4, e5⟩ := hnew
    exact ⟨s, e1, c1.trans e2, c2.trans e3, by rw [c3]; exact e4, Or.inl (c5.trans hsp)⟩
  · show ssNumUnits (Bandit.reset (objOps (etaOps sk) realLib rng) cfg heap a).st = 0
    simp only [ssNumUnits, c5, hsp]

/-- runs from any two reachable states, after a reset, return the same and leave the generator in the same state -/
theorem Runnable.alike (h : Runnable sk alg subG specs k l units ex) (hcl : CleanClones sk) (rng : Rng W ℝ) (o : Obj M P) {heap heap' : Nat → Obj M P}
    (hh : Reached sk (objOps (etaOps sk) realLib rng) rng (heapOf o ex.arms) heap)
    (hh' : Reached sk (objOps (etaOps sk) realLib rng) rng (heapOf o ex.arms) heap') (cfg : BanditCfg Nat ℝ) (hcfg : cfg.arms = List.range specs.length) (w : W)
    (env : BanditEnv W (Cell ℝ)) (all : Option (ExpData (Cell ℝ))) (fuel : Nat) :
    let ops := objOps (etaOps sk) realLib rng
    ((lucbRun env ops cfg all fuel (Bandit.reset ops cfg heap, w)).1 = (lucbRun env ops cfg all fuel (Bandit.reset ops cfg heap', w)).1 ∧
      (lucbRun env ops cfg all fuel (Bandit.reset ops cfg heap, w)).2.2 = (lucbRun env ops cfg all fuel (Bandit.reset ops cfg heap', w)).2.2) ∧
    ((seRun env ops cfg all fuel (Bandit.reset ops cfg heap, w)).1 = (seRun env ops cfg all fuel (Bandit.reset ops cfg heap', w)).1 ∧
      (seRun env ops cfg all fuel (Bandit.reset ops cfg heap, w)).2.2 = (seRun env ops cfg all fuel (Bandit.reset ops cfg heap', w)).2.2) := by
  intro ops
  have ha := alike_obj (etaOps sk) realLib rng
  have key := fun heap hh => h.core (heap := heap) hcl rng o hh cfg hcfg
  have h1 : ∀ heap, Reached sk ops rng (heapOf o ex.arms) heap → AgreeC ObjCore ObjFull cfg.arms (Bandit.reset ops cfg heap, w) (heapOf o ex.arms, w) :=
    fun heap hh => ⟨rfl, fun a ha => ⟨(key heap hh a ha).1, fun h => h.elim⟩⟩
  have u := fun heap hh => (rel_lucbRun ha env cfg all fuel).same (h1 heap hh)
  have e := fun heap hh => (rel_seRun ha env cfg all fuel).same ⟨h1 heap hh, fun a ha => (key heap hh a ha).2⟩
  exact ⟨⟨(u _ hh).1.trans (u _ hh').1.symm, (u _ hh).2.1.trans (u _ hh').2.1.symm⟩, ⟨(e _ hh).1.trans (e _ hh').1.symm, (e _ hh).2.1.trans (e _ hh').2.1.symm⟩⟩

/-- LUCB and successive elimination from a reachable state, after a reset, on data of the example -/
theorem Runnable.runsFrom (h : Runnable sk alg subG specs k l units ex) (hcl : CleanClones sk) (rng : Rng W ℝ) (o : Obj M P) {heap : Nat → Obj M P}
    (hh : Reached sk (objOps (etaOps sk) realLib rng) rng (heapOf o ex.arms) heap)
    (env : BanditEnv W (Cell ℝ)) (w : W) {n : Nat} {all : ExpData (Cell ℝ)} (hall : GoodData k (.int 0) (.int 1) n all)
    (hn : l + ((specs.length * units : Nat) : ℝ) ≤ (all.nUnits : ℝ)) :
    let ops := objOps (etaOps sk) realLib rng
    Returns (seRun env ops ex.se (some all) (⌊l⌋₊ + 2) (Bandit.reset ops ex.se heap, w)) ∧
    ReturnsUnlessTied ops ex.lucb.arms (lucbRun env ops ex.lucb (some all) (⌊l⌋₊ + 2) (Bandit.reset ops ex.lucb heap, w)) := by
  intro ops
  have hun := h.un
  have h2 := h.two
  refine ⟨?_, ?_⟩
  · have hs := h.ready hcl rng o hh ex.se (by rw [h.se_eq])
    rw [h.se_eq] at hs ⊢
    exact Bandit.C81_elimination env (h.reliableOn rng _ hall) (by dsimp only; rw [Ne, List.range_eq_nil]; omega) rfl h.lim (by dsimp only; omega) (by simpa using hn) _ hs w
  · have hs := h.ready hcl rng o hh ex.lucb (by rw [h.lucb_eq])
    rw [h.lucb_eq] at hs ⊢
    exact Bandit.C81_lucb_partial env (h.reliableOn rng _ hall) (by simpa using h2) rfl h.lim (by dsimp only; omega) (by simpa using hn) _ hs w

/-- a repetition leaves the arms in a reachable state -/
theorem reached_repetition {rng : Rng W ℝ} {heap0 heap : Nat → Obj M P} (hh : Reached sk (objOps (etaOps sk) realLib rng) rng heap0 heap)
    (env : BanditEnv W (Cell ℝ)) (seed : Nat → W) (fuel : Nat) (all : ExpData (Cell ℝ)) (m : Nat) (w : W) :
    Reached sk (objOps (etaOps sk) realLib rng) rng heap0 (repetition (objOps (etaOps sk) realLib rng) env seed ex fuel all m (heap, w)).2.1 := by
  have h1 : Reached sk (objOps (etaOps sk) realLib rng) rng heap0 (lucbRun env (objOps (etaOps sk) realLib rng) ex.lucb (some all) fuel
      (Bandit.reset (objOps (etaOps sk) realLib rng) ex.lucb heap, seed m)).2.1 :=
    Reached.calls [.reset ex.lucb, .lucb env ex.lucb (some all) fuel] (seed m) hh
  have h2 : ∀ heap, Reached sk (objOps (etaOps sk) realLib rng) rng heap0 heap → Reached sk (objOps (etaOps sk) realLib rng) rng heap0
      (seRun env (objOps (etaOps sk) realLib rng) ex.se (some all) fuel (Bandit.reset (objOps (etaOps sk) realLib rng) ex.se heap, seed m)).2.1 :=
    fun heap hh => Reached.calls [.reset ex.se, .se env ex.se (some all) fuel] (seed m) hh
  unfold repetition
  dsimp only
  generalize lucbRun env (objOps (etaOps sk) realLib rng) ex.lucb (some all) fuel (Bandit.reset (objOps (etaOps sk) realLib rng) ex.lucb heap, seed m) = x at h1 ⊢
  obtain ⟨x, s⟩ := x
  rcases x with e | _ | lucb
  · exact h1
  · exact h1
  · dsimp only
    generalize reportedSamples lucb = a
    rcases a with e | a
    · exact h1
    · dsimp only
      replace h2 := h2 _ h1
      dsimp only at h2
      generalize seRun env (objOps (etaOps sk) realLib rng) ex.se (some all) fuel (Bandit.reset (objOps (etaOps sk) realLib rng) ex.se s.1, seed m) = y at h2 ⊢
      obtain ⟨y, s2⟩ := y
      rcases y with e | _ | se
      · exact h2
      · exact h2
      · dsimp only
        generalize reportedSamples se = b
        rcases b with e | b
        · exact h2
        · dsimp only
          generalize reportedUniform (List.range ex.arms.length) se = c
          rcases c with e | c <;> exact h2

/-- what a repetition returns does not depend on the reachable state of the arms nor on the state of the generator -/
theorem Runnable.isolated (h : Runnable sk alg subG specs k l units ex) (hcl : CleanClones sk) (rng : Rng W ℝ) (o : Obj M P) {heap heap' : Nat → Obj M P}
    (hh : Reached sk (objOps (etaOps sk) realLib rng) rng (heapOf o ex.arms) heap)
    (hh' : Reached sk (objOps (etaOps sk) realLib rng) rng (heapOf o ex.arms) heap')
    (env : BanditEnv W (Cell ℝ)) (seed : Nat → W) (fuel : Nat) (all : ExpData (Cell ℝ)) (m : Nat) (w w' : W) :
    let ops := objOps (etaOps sk) realLib rng
    (repetition ops env seed ex fuel all m (heap, w)).1 = (repetition ops env seed ex fuel all m (heap', w')).1 ∧
      (repetition ops env seed ex fuel all m (heap, w)).2.2 = (repetition ops env seed ex fuel all m (heap', w')).2.2 := by
  intro ops
  obtain ⟨⟨a1, a2⟩, -⟩ := h.alike hcl rng o hh hh' ex.lucb (by rw [h.lucb_eq]) (seed m) env (some all) fuel
  have b := fun heap heap' hh hh' => (h.alike (heap := heap) (heap' := heap') hcl rng o hh hh' ex.se (by rw [h.se_eq]) (seed m) env (some all) fuel).2
  have r1 : ∀ heap, Reached sk ops rng (heapOf o ex.arms) heap → Reached sk ops rng (heapOf o ex.arms) (lucbRun env ops ex.lucb (some all) fuel
      (Bandit.reset ops ex.lucb heap, seed m)).2.1 := fun heap hh => Reached.calls [.reset ex.lucb, .lucb env ex.lucb (some all) fuel] (seed m) hh
  have r2 := r1 _ hh
  have r3 := r1 _ hh'
  unfold repetition
  dsimp only
  generalize lucbRun env ops ex.lucb (some all) fuel (Bandit.reset ops ex.lucb heap, seed m) = x at a1 a2 r2 ⊢
  generalize lucbRun env ops ex.lucb (some all) fuel (Bandit.reset ops ex.lucb heap', seed m) = x' at a1 a2 r3 ⊢
  obtain ⟨x, s⟩ := x
  obtain ⟨x', s'⟩ := x'
  dsimp only at a1 a2
  subst a1
  rcases x with e | _ | lucb
  · exact ⟨rfl, a2⟩
  · exact ⟨rfl, a2⟩
  · dsimp only
    generalize reportedSamples lucb = a
    rcases a with e | a
    · exact ⟨rfl, a2⟩
    · dsimp only
      obtain ⟨b1, b2⟩ := b _ _ r2 r3
      dsimp only at b1 b2
      generalize seRun env ops ex.se (some all) fuel (Bandit.reset ops ex.se s.1, seed m) = y at b1 b2 ⊢
      generalize seRun env ops ex.se (some all) fuel (Bandit.reset ops ex.se s'.1, seed m) = y' at b1 b2 ⊢
      obtain ⟨y, s2⟩ := y
      obtain ⟨y', s2'⟩ := y'
      dsimp only at b1 b2
      subst b1
      rcases y with e | _ | se
      · exact ⟨rfl, b2⟩
      · exact ⟨rfl, b2⟩
      · dsimp only
        generalize reportedSamples se = b
        rcases b with e | b
        · exact ⟨rfl, b2⟩
        · dsimp only
          generalize reportedUniform (List.range ex.arms.length) se = c
          rcases c with e | c <;> exact ⟨rfl, b2⟩

/-- a repetition on data of the example returns plausible counts or fails because all arms tie -/
theorem Runnable.repetition (h : Runnable sk alg subG specs k l units ex) (hcl : CleanClones sk) (rng : Rng W ℝ) (o : Obj M P) {heap : Nat → Obj M P}
    (hh : Reached sk (objOps (etaOps sk) realLib rng) rng (heapOf o ex.arms) heap) (env : BanditEnv W (Cell ℝ)) (seed : Nat → W) (m : Nat) (w : W)
    {n : Nat} {all : ExpData (Cell ℝ)} (hall : GoodData k (.int 0) (.int 1) n all) (hn : l + ((specs.length * units : Nat) : ℝ) ≤ (all.nUnits : ℝ)) :
    let ops := objOps (etaOps sk) realLib rng
    (∃ c s, repetition ops env seed ex (⌊l⌋₊ + 2) all m (heap, w) = (.ok (some c), s) ∧ Plausible specs.length units l c) ∨
    ∃ s, repetition ops env seed ex (⌊l⌋₊ + 2) all m (heap, w) = (.error .valueError, s) ∧ AllTie ops (List.range specs.length) s.1 := by
  intro ops
  have hlu : ex.lucb.arms = List.range specs.length := by rw [h.lucb_eq]
  rcases (h.runsFrom hcl rng o hh env (seed m) hall hn).2 with ⟨lucb, s, e1⟩ | ⟨s, e1, ht⟩
  · have r1 : Reached sk ops rng (heapOf o ex.arms) s.1 := by
      have := Reached.calls [.reset ex.lucb, .lucb env ex.lucb (some all) (⌊l⌋₊ + 2)] (seed m) hh
      simp only [BanditCall.exec] at this
      rw [e1] at this
      exact this
    obtain ⟨se, s2, e2⟩ := (h.runsFrom hcl rng o r1 env (seed m) hall hn).1
    obtain ⟨a, a1, a2, a3⟩ := Bandit.lucb_counts (by rw [h.lucb_eq]; exact List.nodup_range) (by rw [h.lucb_eq]; simpa using h.two) (by rw [h.lucb_eq]) h.lim e1
    obtain ⟨b, c, b1, b2, b3, b4, b5⟩ := Bandit.se_counts (by rw [h.se_eq]; exact List.nodup_range) (by rw [h.se_eq]; simpa using h.two) (by rw [h.se_eq]) h.lim e2
    simp only [h.se_eq, List.length_range] at b2 b3 b4 b5
    simp only [h.lucb_eq, List.length_range] at a2 a3
    refine Or.inl ⟨⟨a, b, c * (specs.length * units)⟩, s2, ?_, ⟨a2, a3, b3, b5, b4, Dvd.intro_left _ rfl⟩⟩
    unfold PaperBandits.repetition
    simp only [ops, e1, a1, e2, b1, ← h.length_eq, b2]
  · refine Or.inr ⟨s, ?_, by rw [← hlu]; exact ht⟩
    unfold PaperBandits.repetition
    simp only [ops, e1]

/-- all repetitions with an accepted instance -/
theorem Runnable.repeats (h : Runnable sk alg subG specs k l units ex) (hcl : CleanClones sk) (rng : Rng W ℝ) (o : Obj M P) (env : BanditEnv W (Cell ℝ))
    (seed : Nat → W) {limit : Nat} (hlim : l = limit) (reps m : Nat) {heap : Nat → Obj M P}
    (hh : Reached sk (objOps (etaOps sk) realLib rng) rng (heapOf o ex.arms) heap) (w : W) :
    let ops := objOps (etaOps sk) realLib rng
    (∃ cs s, repeats ops env seed ex (⌊l⌋₊ + 2) limit units m reps (heap, w) = (.ok (some cs), s) ∧ cs.length = reps ∧ ∀ c ∈ cs, Plausible specs.length units l c) ∨
    ∃ s, repeats ops env seed ex (⌊l⌋₊ + 2) limit units m reps (heap, w) = (.error .valueError, s) ∧ AllTie ops (List.range specs.length) s.1 := by
  intro ops
  induction reps generalizing m heap w with
  | zero => exact Or.inl ⟨[], (heap, w), rfl, rfl, by simp⟩
  | succ reps ih =>
    have hun := h.un
    have h2 := h.two
    have hpos : 1 ≤ limit + units * ex.arms.length := by
      rw [← h.length_eq]
      have := Nat.mul_le_mul hun h2
      omega
    obtain ⟨smp, w', e, hg⟩ := h.source (limit + units * ex.arms.length) hpos w
    have hall := toData_good hg
    have hn : l + ((specs.length * units : Nat) : ℝ) ≤ ((toData smp).nUnits : ℝ) := by
      rw [toData_nUnits hg, hlim, ← h.length_eq, Nat.mul_comm units]
      push_cast
      exact le_refl _
    have r := reached_repetition (ex := ex) hh env seed (⌊l⌋₊ + 2) (toData smp) m w'
    have eg : generate ex.scm (limit + units * ex.arms.length) w = (.ok (toData smp), w') := by simp [generate, e]
    rcases h.repetition hcl rng o hh env seed m w' hall hn with ⟨c, s, e1, hp⟩ | ⟨s, e1, ht⟩
    · rw [e1] at r
      rcases ih (m + 1) r s.2 with ⟨cs, s', e2, e3, e4⟩ | ⟨s', e2, ht⟩
      · refine Or.inl ⟨c :: cs, s', ?_, by simp [e3], ?_⟩
        · rw [PaperBandits.repeats]
          simp only [eg, ops, e1]
          simp only [ops] at e2
          rw [e2]
        · intro c' hc'
          rcases List.mem_cons.1 hc' with rfl | hc'
          · exact hp
          · exact e4 _ hc'
      · refine Or.inr ⟨s', ?_, ht⟩
        rw [PaperBandits.repeats]
        simp only [eg, ops, e1]
        simp only [ops] at e2
        rw [e2]
    · refine Or.inr ⟨s, ?_, ht⟩
      rw [PaperBandits.repeats]
      simp only [eg, ops, e1]

end

end PaperBandits
end Verif
