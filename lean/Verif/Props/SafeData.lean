import Verif.Props.Safe
import Verif.Lemmas.SafeData
import Verif.Lemmas.PaperData
import Verif.Props.PaperSafe

/-!
# C81: runs on a dataset that is large enough do not raise
-/

set_option linter.unusedSectionVars false

namespace Verif
namespace Bandit
variable {I S W β α : Type} [Field α] [LinearOrder α] [IsStrictOrderedRing α] [DecidableEq I]
variable {ops : ArmOps S W β α} {cfg : BanditCfg I α} {New Old : I → S → Prop} {G : ExpData β → Prop} {all : ExpData β}

theorem readyB_nil {heap : I → S} {w : W} (h : ∀ a ∈ cfg.arms, New a (heap a) ∧ ops.numUnits (heap a) = 0) : ReadyB ops New Old 0 cfg.arms [] (heap, w) :=
  fun a ha => ⟨Or.inl ⟨(h a ha).1, (h a ha).2.le⟩, fun hm => by simp at hm⟩

theorem room_of_le {l : α} (h : l + ((cfg.arms.length * cfg.unitsPerRound : Nat) : α) ≤ (all.nUnits : α)) : Room cfg l all := by
  intro t ht
  have : ((t + cfg.arms.length * cfg.unitsPerRound : Nat) : α) ≤ (all.nUnits : α) := by
    rw [Nat.cast_add]
    exact le_trans (by gcongr) h
  exact_mod_cast this

variable (env : BanditEnv W β)

/-- **C81** A uniform run on a given dataset returns a result, if the arms never fail on a full batch of it and the dataset has one more round
of units than the sample limit. -/
theorem C81_uniform [FloorRing α] (hr : ReliableOn all ops cfg New Old G) (h2 : 2 ≤ cfg.arms.length) {l : α} (hL : cfg.sampleLimit = some (.fin l)) (hl : 0 ≤ l)
    (hu : 1 ≤ cfg.unitsPerRound) (hall : l + ((cfg.arms.length * cfg.unitsPerRound : Nat) : α) ≤ (all.nUnits : α)) (heap : I → S)
    (hh : ∀ a ∈ cfg.arms, New a (heap a) ∧ ops.numUnits (heap a) = 0) (w : W) :
    ∃ bd s', uniformRun env ops cfg (some all) (⌊l⌋₊ + 2) (heap, w) = (.ok (some bd), s') := by
  have ht := (C34_all env ops cfg (some all) hL (by rintro h; simp [h] at h2) hu (heap, w)).1
  rcases postB_uniformRun (X := fun _ _ => False) (env := env) hr h2 hL hl (room_of_le hall) (⌊l⌋₊ + 2) (heap, w) (readyB_nil hh) with ⟨r, s', e, -⟩ | ⟨_, _, _, h⟩
  · rw [e] at ht
    cases r with
    | none => exact absurd rfl ht
    | some bd => exact ⟨bd, s', e⟩
  · exact h.elim

/-- **C81** The same for successive elimination. -/
theorem C81_elimination [FloorRing α] (hr : ReliableOn all ops cfg New Old G) (h1 : cfg.arms ≠ []) {l : α} (hL : cfg.sampleLimit = some (.fin l)) (hl : 0 ≤ l)
    (hu : 1 ≤ cfg.unitsPerRound) (hall : l + ((cfg.arms.length * cfg.unitsPerRound : Nat) : α) ≤ (all.nUnits : α)) (heap : I → S)
    (hh : ∀ a ∈ cfg.arms, New a (heap a) ∧ ops.numUnits (heap a) = 0) (w : W) :
    ∃ bd s', seRun env ops cfg (some all) (⌊l⌋₊ + 2) (heap, w) = (.ok (some bd), s') := by
  have ht := (C34_all env ops cfg (some all) hL h1 hu (heap, w)).2.2
  rcases postB_seRun (X := fun _ _ => False) (env := env) hr hL hl (room_of_le hall) (⌊l⌋₊ + 2) (heap, w) (readyB_nil hh) with ⟨r, s', e, -⟩ | ⟨_, _, _, h⟩
  · rw [e] at ht
    cases r with
    | none => exact absurd rfl ht
    | some bd => exact ⟨bd, s', e⟩
  · exact h.elim

/-- **C81 (partial)** The same for LUCB, except when all arms have the same cost-adjusted estimate.  Missing: that it returns a result in this
case too (it does not, see C78). -/
theorem C81_lucb_partial [FloorRing α] (hr : ReliableOn all ops cfg New Old G) (h2 : 2 ≤ cfg.arms.length) {l : α} (hL : cfg.sampleLimit = some (.fin l)) (hl : 0 ≤ l)
    (hu : 1 ≤ cfg.unitsPerRound) (hall : l + ((cfg.arms.length * cfg.unitsPerRound : Nat) : α) ≤ (all.nUnits : α)) (heap : I → S)
    (hh : ∀ a ∈ cfg.arms, New a (heap a) ∧ ops.numUnits (heap a) = 0) (w : W) :
    (∃ bd s', lucbRun env ops cfg (some all) (⌊l⌋₊ + 2) (heap, w) = (.ok (some bd), s')) ∨
    ∃ s', lucbRun env ops cfg (some all) (⌊l⌋₊ + 2) (heap, w) = (.error .valueError, s') ∧ AllTie ops cfg.arms s'.1 := by
  have ht := (C34_all env ops cfg (some all) hL (by rintro h; simp [h] at h2) hu (heap, w)).2.1
  rcases postB_lucbRun (env := env) hr h2 hL hl (room_of_le hall) (⌊l⌋₊ + 2) (heap, w) (readyB_nil hh) with ⟨r, s', e, -⟩ | ⟨x, s', e, rfl, h⟩
  · rw [e] at ht
    cases r with
    | none => exact absurd rfl ht
    | some bd => exact Or.inl ⟨bd, s', e⟩
  · exact Or.inr ⟨s', e, h⟩

/-! A case: the arms of C78, that raise when they are given an empty batch. -/

/-- arms that refuse empty batches -/
def pickyOps (est : Nat → ℚ) : ArmOps (Nat × Nat) Unit ℚ ℚ :=
  { steadyOps est with update := fun d δ s => if d.nUnits = 0 then (.error .valueError, s) else (steadyOps est).update d δ s }

/-- `n` units without covariates -/
def bareData (n : Nat) : ExpData ℚ := ExpData.new (some (.d2 0 (List.replicate n []))) (some (List.replicate n 1)) (some (List.replicate n 0))

theorem bareData_wf (n : Nat) : (bareData n).WF := by
  constructor <;> simp [bareData, ExpData.new, Arr.WF, Arr.len]

theorem picky_reliable (est : Nat → ℚ) (n : Nat) : ReliableOn (bareData n) (pickyOps est) steadyCfg (fun a s => s.1 = a) (fun a s => s.1 = a ∧ s.2 ≠ 0)
    (fun d => d.nUnits = 2) where
  batch := by
    intro i hi
    refine ⟨_, ExpData.slice_eq_pick _ (bareData_wf n) .., ?_⟩
    have := slice_units (bareData n) (bareData_wf n) i (i + 2) (ExpData.slice_eq_pick _ (bareData_wf n) ..)
    simp only [steadyCfg] at hi ⊢
    omega
  update := by
    rintro a - d ⟨i, k⟩ w hd h
    have : d.nUnits ≠ 0 := by omega
    refine ⟨_, _, _, by simp only [pickyOps, if_neg this]; rfl, ⟨?_, by dsimp only; omega⟩, by simp [pickyOps, steadyOps, steadyCfg, hd]⟩
    rcases h with h | h
    · exact h
    · exact h.1
  estimates := by
    rintro a - ⟨i, k⟩ h
    refine ⟨.fin (est i - 3 / k), .fin (est i + 3 / k), .fin (est i), ?_, ?_, ?_, ?_, ?_⟩ <;> simp_all [pickyOps, steadyOps, Fl.mul]

example : ∃ bd s', uniformRun steadyEnv (pickyOps fun a => a / 10 + 1) steadyCfg (some (bareData 14)) 12 (fun a => (a, 0), ()) = (.ok (some bd), s') := by
  have := C81_uniform steadyEnv (picky_reliable (fun a => a / 10 + 1) 14) (by simp [steadyCfg]) (l := 10) rfl (by norm_num) (by simp [steadyCfg])
    (by norm_num [steadyCfg, bareData, ExpData.new, Arr.len]) (fun a => (a, 0)) (fun a _ => ⟨rfl, rfl⟩) ()
  rwa [show ⌊(10 : ℚ)⌋₊ = 10 by norm_num] at this

example : ∃ bd s', seRun steadyEnv (pickyOps fun a => a / 10 + 1) steadyCfg (some (bareData 14)) 12 (fun a => (a, 0), ()) = (.ok (some bd), s') := by
  have := C81_elimination steadyEnv (picky_reliable (fun a => a / 10 + 1) 14) (by simp [steadyCfg]) (l := 10) rfl (by norm_num) (by simp [steadyCfg])
    (by norm_num [steadyCfg, bareData, ExpData.new, Arr.len]) (fun a => (a, 0)) (fun a _ => ⟨rfl, rfl⟩) ()
  rwa [show ⌊(10 : ℚ)⌋₊ = 10 by norm_num] at this

example : ∃ bd s', lucbRun steadyEnv (pickyOps fun a => a / 10 + 1) steadyCfg (some (bareData 14)) 12 (fun a => (a, 0), ()) = (.ok (some bd), s') := by
  have := C81_lucb_partial steadyEnv (picky_reliable (fun a => a / 10 + 1) 14) (by simp [steadyCfg]) (l := 10) rfl (by norm_num) (by simp [steadyCfg])
    (by norm_num [steadyCfg, bareData, ExpData.new, Arr.len]) (fun a => (a, 0)) (fun a _ => ⟨rfl, rfl⟩) ()
  rw [show ⌊(10 : ℚ)⌋₊ = 10 by norm_num] at this
  rcases this with h | ⟨s', h, -⟩
  · exact h
  · have e : (lucbRun steadyEnv (pickyOps fun a => a / 10 + 1) steadyCfg (some (bareData 14)) (10 + 2) (fun a => (a, 0), ())).1.toBool = true := by decide +kernel
    rw [h] at e
    cases e

/-- With four units the data run out and the elimination run raises. -/
example : (seRun steadyEnv (pickyOps fun a => a / 10 + 1) steadyCfg (some (bareData 4)) 12 (fun a => (a, 0), ())).1.toBool = false := by decide +kernel

end Bandit

namespace PaperBandits
open Section5 Arm Paper Bandit
variable {R K F W M P : Type}

theorem Runnable.runsOn {sk : Sklearn M P} {alg : CIAlgorithm} {subG : Fl ℝ} {specs : List (ArmSpec ℝ)} {k : Nat} {l : ℝ} {units : Nat} {ex : Example W M P}
    (h : Runnable sk alg subG specs k l units ex) (hcl : CleanClones sk) (rng : Rng W ℝ) (o : Obj M P) (calls : List (BanditCall Nat W (Cell ℝ) ℝ))
    (env : BanditEnv W (Cell ℝ)) (w : W) {n : Nat} {w1 w2 : W} {smp : Sample ℝ} (hgen : ex.scm.generate n w1 = (.ok smp, w2))
    (hn : l + ((specs.length * units : Nat) : ℝ) ≤ n) :
    let ops := objOps (etaOps sk) realLib rng
    let used := BanditCall.exec ops calls (heapOf o ex.arms, w)
    Returns (uniformRun env ops ex.uniform (some (toData smp)) (⌊l⌋₊ + 2) (reset ops ex.uniform used.1, used.2)) ∧
    Returns (seRun env ops ex.se (some (toData smp)) (⌊l⌋₊ + 2) (reset ops ex.se used.1, used.2)) ∧
    ReturnsUnlessTied ops ex.lucb.arms (lucbRun env ops ex.lucb (some (toData smp)) (⌊l⌋₊ + 2) (reset ops ex.lucb used.1, used.2)) := by
  intro ops used
  have hun := h.un
  have h2 := h.two
  have hn1 : 1 ≤ n := by
    have h1 : 2 ≤ specs.length * units := le_trans hun (Nat.le_mul_of_pos_left _ (by omega))
    have h3 : ((2 : Nat) : ℝ) ≤ ((specs.length * units : Nat) : ℝ) := Nat.cast_le.2 h1
    have h4 : ((1 : Nat) : ℝ) ≤ n := by push_cast at h3 ⊢; push_cast at hn; linarith [h.lim]
    exact_mod_cast h4
  obtain ⟨smp', w', e, hg⟩ := h.source n hn1 w1
  obtain rfl : smp' = smp := Except.ok.inj (congrArg Prod.fst (e.symm.trans hgen))
  have hall := toData_good hg
  have hu : l + ((specs.length * units : Nat) : ℝ) ≤ ((toData smp').nUnits : ℝ) := by rwa [toData_nUnits hg]
  have hready := fun cfg hcfg => reset_ready (alg := alg) h hcl.ridge hcl.logistic hcl.ridge0 hcl.logistic0 rng o calls w cfg hcfg
  refine ⟨?_, ?_, ?_⟩
  · have hs := hready ex.uniform (by rw [h.uniform_eq])
    rw [h.uniform_eq] at hs ⊢
    exact Bandit.C81_uniform env (h.reliableOn rng _ hall) (by simpa using h2) rfl h.lim (by dsimp only; omega) (by simpa using hu) _
      (fun a ha => ⟨(hs a ha).1, Nat.le_zero.1 (hs a ha).2⟩) used.2
  · have hs := hready ex.se (by rw [h.se_eq])
    rw [h.se_eq] at hs ⊢
    exact Bandit.C81_elimination env (h.reliableOn rng _ hall) (by dsimp only; rw [Ne, List.range_eq_nil]; omega) rfl h.lim (by dsimp only; omega) (by simpa using hu) _
      (fun a ha => ⟨(hs a ha).1, Nat.le_zero.1 (hs a ha).2⟩) used.2
  · have hs := hready ex.lucb (by rw [h.lucb_eq])
    rw [h.lucb_eq] at hs ⊢
    exact Bandit.C81_lucb_partial env (h.reliableOn rng _ hall) (by simpa using h2) rfl h.lim (by dsimp only; omega) (by simpa using hu) _
      (fun a ha => ⟨(hs a ha).1, Nat.le_zero.1 (hs a ha).2⟩) used.2

theorem Runnable.length_eq {sk : Sklearn M P} {alg : CIAlgorithm} {subG : Fl ℝ} {specs : List (ArmSpec ℝ)} {k : Nat} {l : ℝ} {units : Nat} {ex : Example W M P}
    (h : Runnable sk alg subG specs k l units ex) : specs.length = ex.arms.length := by rw [h.arms_eq, List.length_map]

section Runs
variable {r : Noise W ℝ} {g : Gens R W} {sk : Sklearn M P} {zDim vDim : List Nat} {zCost vCost z0Cost : ℝ} {k : Nat} {l : ℝ} {units : Nat} {latex : Bool}
  {fuel : Nat} {s0 : R × W} {ex : Example W M P} {w0 : W}
variable (rng : Rng W ℝ) (o : Obj M P) (calls : List (BanditCall Nat W (Cell ℝ) ℝ)) (env : BanditEnv W (Cell ℝ)) (w : W) {n : Nat} {w1 w2 : W} {smp : Sample ℝ}

/-- **C81** for the loop of the notebook and Section 5.1: a dataset `all_data` of `sample_limit + units_per_round * len(arm_list)` units (or more) is
drawn; then, whatever the bandits did before, uniform sampling and successive elimination return a result on it after a reset. -/
theorem C81_runs_51 (hr : GoodNoise r) (hsk : GoodSklearn sk) (hcl : CleanClones sk) (h : GoodArgs zDim vDim zCost vCost z0Cost k l units)
    (hex : example51 r g sk zDim vDim zCost vCost z0Cost k (.fin l) units latex fuel s0 = some (.ok ex, w0)) (hg : WideScale ex)
    (hgen : ex.scm.generate n w1 = (.ok smp, w2)) (hn : l + ((ex.arms.length * units : Nat) : ℝ) ≤ n) :
    let ops := objOps (etaOps sk) realLib rng
    let used := BanditCall.exec ops calls (heapOf o ex.arms, w)
    Returns (uniformRun env ops ex.uniform (some (toData smp)) (⌊l⌋₊ + 2) (reset ops ex.uniform used.1, used.2)) ∧
    Returns (seRun env ops ex.se (some (toData smp)) (⌊l⌋₊ + 2) (reset ops ex.se used.1, used.2)) := by
  obtain ⟨subG, specs, hR⟩ := runnable51 hr hsk h hex hg
  have := hR.runsOn hcl rng o calls env w hgen (by rwa [hR.length_eq])
  exact ⟨this.1, this.2.1⟩

/-- **C81** The same for Section 5.2. -/
theorem C81_runs_52 (hr : GoodNoise r) {lib : Nonlinear.GPLib K F ℝ} {pred : F → List ℝ → ℝ} (hl : RowWise lib pred) {kernel : K} (hsk : GoodSklearn sk)
    (hcl : CleanClones sk) (h : GoodArgs zDim vDim zCost vCost z0Cost k l units)
    (hex : example52 r lib kernel g sk zDim vDim zCost vCost z0Cost k (.fin l) units latex fuel s0 = some (.ok ex, w0))
    (hgen : ex.scm.generate n w1 = (.ok smp, w2)) (hn : l + ((ex.arms.length * units : Nat) : ℝ) ≤ n) :
    let ops := objOps (etaOps sk) realLib rng
    let used := BanditCall.exec ops calls (heapOf o ex.arms, w)
    Returns (uniformRun env ops ex.uniform (some (toData smp)) (⌊l⌋₊ + 2) (reset ops ex.uniform used.1, used.2)) ∧
    Returns (seRun env ops ex.se (some (toData smp)) (⌊l⌋₊ + 2) (reset ops ex.se used.1, used.2)) := by
  obtain ⟨subG, specs, hR⟩ := runnable52 hr hl hsk h hex
  have := hR.runsOn hcl rng o calls env w hgen (by rwa [hR.length_eq])
  exact ⟨this.1, this.2.1⟩

/-- **C81 (partial)** LUCB in the loop of the notebook, Section 5.1.  Missing: runs in which all arms have the same cost-adjusted estimate. -/
theorem C81_lucb_51_partial (hr : GoodNoise r) (hsk : GoodSklearn sk) (hcl : CleanClones sk) (h : GoodArgs zDim vDim zCost vCost z0Cost k l units)
    (hex : example51 r g sk zDim vDim zCost vCost z0Cost k (.fin l) units latex fuel s0 = some (.ok ex, w0)) (hg : WideScale ex)
    (hgen : ex.scm.generate n w1 = (.ok smp, w2)) (hn : l + ((ex.arms.length * units : Nat) : ℝ) ≤ n) :
    let ops := objOps (etaOps sk) realLib rng
    let used := BanditCall.exec ops calls (heapOf o ex.arms, w)
    ReturnsUnlessTied ops ex.lucb.arms (lucbRun env ops ex.lucb (some (toData smp)) (⌊l⌋₊ + 2) (reset ops ex.lucb used.1, used.2)) := by
  obtain ⟨subG, specs, hR⟩ := runnable51 hr hsk h hex hg
  exact (hR.runsOn hcl rng o calls env w hgen (by rwa [hR.length_eq])).2.2

/-- **C81 (partial)** The same for Section 5.2. -/
theorem C81_lucb_52_partial (hr : GoodNoise r) {lib : Nonlinear.GPLib K F ℝ} {pred : F → List ℝ → ℝ} (hl : RowWise lib pred) {kernel : K} (hsk : GoodSklearn sk)
    (hcl : CleanClones sk) (h : GoodArgs zDim vDim zCost vCost z0Cost k l units)
    (hex : example52 r lib kernel g sk zDim vDim zCost vCost z0Cost k (.fin l) units latex fuel s0 = some (.ok ex, w0))
    (hgen : ex.scm.generate n w1 = (.ok smp, w2)) (hn : l + ((ex.arms.length * units : Nat) : ℝ) ≤ n) :
    let ops := objOps (etaOps sk) realLib rng
    let used := BanditCall.exec ops calls (heapOf o ex.arms, w)
    ReturnsUnlessTied ops ex.lucb.arms (lucbRun env ops ex.lucb (some (toData smp)) (⌊l⌋₊ + 2) (reset ops ex.lucb used.1, used.2)) := by
  obtain ⟨subG, specs, hR⟩ := runnable52 hr hl hsk h hex
  exact (hR.runsOn hcl rng o calls env w hgen (by rwa [hR.length_eq])).2.2

end Runs

theorem safeSklearn_clones : CleanClones safeSklearn := ⟨⟨fun _ _ _ => rfl, fun _ => rfl⟩, ⟨fun _ _ _ => rfl, fun _ => rfl⟩, rfl, rfl⟩

/-- The loop body of the notebook, for an example with five arms: LUCB may have failed on these data, successive elimination returns. -/
example : ∃ ex w0, example51 flipNoise flipGens safeSklearn [2, 1, 2] [0, 3, 1] 1 2 3 2 (.fin 1000) 100 false 0 ((), true) = some (.ok ex, w0) ∧
    ∀ (rng : Rng Bool ℝ) (o : Obj (Option ℝ) Unit) (env : BanditEnv Bool (Cell ℝ)) (w w1 : Bool), ∃ smp w2, ex.scm.generate 1500 w1 = (.ok smp, w2) ∧
      let ops := objOps (etaOps safeSklearn) realLib rng
      let used := BanditCall.exec ops [.reset ex.lucb, .lucb env ex.lucb (some (toData smp)) 1002] (heapOf o ex.arms, w)
      Returns (seRun env ops ex.se (some (toData smp)) (⌊(1000 : ℝ)⌋₊ + 2) (reset ops ex.se used.1, used.2)) := by
  obtain ⟨ex, w0, e, hw⟩ := flip_example 100 (by norm_num)
  refine ⟨ex, w0, e, fun rng o env w w1 => ?_⟩
  obtain ⟨subG, specs, hR⟩ := runnable51 flipNoise_good safeSklearn_good (demo_args 100 (by norm_num)) e hw
  obtain ⟨smp, w2, e2, -⟩ := hR.source 1500 (by norm_num) w1
  refine ⟨smp, w2, e2, ?_⟩
  have hlen : ex.arms.length = 5 := by
    rcases C80_construction_51 flipNoise_good flipGens safeSklearn (demo_args 100 (by norm_num)) false 0 ((), true) with e' | ⟨ex', w', e', hp, -⟩
    · rw [e] at e'; cases e'
    · rw [e] at e'; cases e'; rw [hp]; norm_num
  exact (C81_runs_51 rng o _ env w flipNoise_good safeSklearn_good safeSklearn_clones (demo_args 100 (by norm_num)) e hw e2 (by rw [hlen]; norm_num)).2

example : ∃ ex w0, example52 demoNoise demoLib () demoGens safeSklearn [2, 1, 2] [0, 3, 1] 1 2 3 2 (.fin 1000) 100 true 0 ((), ()) = some (.ok ex, w0) ∧
    ∀ (rng : Rng Unit ℝ) (o : Obj (Option ℝ) Unit) (env : BanditEnv Unit (Cell ℝ)) (w w1 : Unit), ∃ smp w2, ex.scm.generate 1500 w1 = (.ok smp, w2) ∧
      let ops := objOps (etaOps safeSklearn) realLib rng
      let used := BanditCall.exec ops [.se env ex.se (some (toData smp)) 1002] (heapOf o ex.arms, w)
      ReturnsUnlessTied ops ex.lucb.arms (lucbRun env ops ex.lucb (some (toData smp)) (⌊(1000 : ℝ)⌋₊ + 2) (reset ops ex.lucb used.1, used.2)) := by
  obtain ⟨ex, w0, e⟩ := demo_example52 100 (by norm_num)
  have hl : RowWise demoLib fun f row => row.sum + f := fun _ _ => rfl
  refine ⟨ex, w0, e, fun rng o env w w1 => ?_⟩
  obtain ⟨subG, specs, hR⟩ := runnable52 demoNoise_good hl safeSklearn_good (demo_args 100 (by norm_num)) e
  obtain ⟨smp, w2, e2, -⟩ := hR.source 1500 (by norm_num) w1
  refine ⟨smp, w2, e2, ?_⟩
  have hlen : ex.arms.length = 5 := by
    rcases C80_construction_52 demoNoise_good hl () demoGens safeSklearn (demo_args 100 (by norm_num)) true 0 ((), ()) with e' | ⟨ex', w', e', hp, -⟩
    · rw [e] at e'; cases e'
    · rw [e] at e'; cases e'; rw [hp]; norm_num
  exact C81_lucb_52_partial rng o _ env w demoNoise_good hl safeSklearn_good safeSklearn_clones (demo_args 100 (by norm_num)) e e2 (by rw [hlen]; norm_num)

end PaperBandits
end Verif
