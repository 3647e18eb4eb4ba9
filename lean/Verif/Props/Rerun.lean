import Verif.Lemmas.Rerun2
import Verif.Lemmas.Paper
import Verif.Props.Bandits
import Verif.Props.Arms

/-!
# Using arms again after `reset` (C77)
-/

set_option linter.unusedSectionVars false

namespace Verif
open Bandit

section
variable {I E β α W : Type} [Field α] [LinearOrder α] [DecidableEq I]

/-- **C77** Bandits that share `SampleSplittingArm`s, whatever was run on them before (any number of runs of the three algorithms with
any configuration and data, ended by a result, by an exception or in the middle, and resets): after `bandit.reset()` every
algorithm returns the same data, raises the same exception and draws the same randomness as with newly made arms.  The
nuisance parameters must forget what they learned when they are reset. -/
theorem C77_sample_splitting (eops : EtaOps E β α) (hr : eops.ResetLaws) (lib : Libm α) (rng : Rng W α) (heap0 : I → ArmObj E β α)
    (cfg : BanditCfg I α) (hfresh : ∀ a ∈ cfg.arms, ∃ e, (heap0 a).st = Arm.init e ∧ eops.reset e = e)
    (calls : List (BanditCall I W β α)) (w0 : W) (env : BanditEnv W β) (all : Option (ExpData β)) (fuel : Nat) :
    let ops := objOps eops lib rng
    let used := BanditCall.exec ops calls (heap0, w0)
    let s1 := (reset ops cfg used.1, used.2)
    let s2 := (heap0, used.2)
    ((uniformRun env ops cfg all fuel s1).1 = (uniformRun env ops cfg all fuel s2).1 ∧
      (uniformRun env ops cfg all fuel s1).2.2 = (uniformRun env ops cfg all fuel s2).2.2) ∧
    ((lucbRun env ops cfg all fuel s1).1 = (lucbRun env ops cfg all fuel s2).1 ∧
      (lucbRun env ops cfg all fuel s1).2.2 = (lucbRun env ops cfg all fuel s2).2.2) ∧
    ((seRun env ops cfg all fuel s1).1 = (seRun env ops cfg all fuel s2).1 ∧
      (seRun env ops cfg all fuel s1).2.2 = (seRun env ops cfg all fuel s2).2.2) :=
  rerun (alike_obj eops lib rng) (resettable_obj eops hr lib rng) heap0 cfg
    (fun a ha => by
      obtain ⟨e, h1, h2⟩ := hfresh a ha
      exact fresh_obj eops lib rng h1 h2) calls w0 env all fuel

/-- **C77** The same for `BootstrapArm`s. -/
theorem C77_bootstrap [IsStrictOrderedRing α] [FloorRing α] (bcfg : BootConfig β) (eops : EtaOps E β α) (hr : eops.ResetLaws) (rng : Rng W α)
    (cost : Fl α) (heap0 : I → ArmState E β α) (cfg : BanditCfg I α) (hfresh : ∀ a ∈ cfg.arms, ∃ e, heap0 a = Arm.init e ∧ eops.reset e = e)
    (calls : List (BanditCall I W β α)) (w0 : W) (env : BanditEnv W β) (all : Option (ExpData β)) (fuel : Nat) :
    let ops := bootArmOps bcfg eops rng cost
    let used := BanditCall.exec ops calls (heap0, w0)
    let s1 := (reset ops cfg used.1, used.2)
    let s2 := (heap0, used.2)
    ((uniformRun env ops cfg all fuel s1).1 = (uniformRun env ops cfg all fuel s2).1 ∧
      (uniformRun env ops cfg all fuel s1).2.2 = (uniformRun env ops cfg all fuel s2).2.2) ∧
    ((lucbRun env ops cfg all fuel s1).1 = (lucbRun env ops cfg all fuel s2).1 ∧
      (lucbRun env ops cfg all fuel s1).2.2 = (lucbRun env ops cfg all fuel s2).2.2) ∧
    ((seRun env ops cfg all fuel s1).1 = (seRun env ops cfg all fuel s2).1 ∧
      (seRun env ops cfg all fuel s1).2.2 = (seRun env ops cfg all fuel s2).2.2) :=
  rerun (alike_boot bcfg eops rng cost) (resettable_boot bcfg eops hr rng cost) heap0 cfg
    (fun a ha => by
      obtain ⟨e, h1, h2⟩ := hfresh a ha
      refine ⟨fun s hs => ⟨?_, ?_, ?_⟩, ?_⟩
      · show eops.reset s.eta = (heap0 a).eta
        rw [hs, h1]
        exact h2
      · rw [h1]; rfl
      · rw [h1]; rfl
      · show (heap0 a).varEst = none
        rw [h1]; rfl) calls w0 env all fuel

end

namespace PaperBandits
variable {M P W : Type}

theorem etaOps_resetLaws (sk : Sklearn M P) (hR : sk.ridge.CloneLaws) (hC : sk.logistic.CloneLaws) : (etaOps sk).ResetLaws :=
  sumEtaOps_resetLaws _ _ (FrontDoor.resetLaws sk.ridge sk.fdRidge0) (AIPW.resetLaws sk.ridge sk.logistic hR hC)

theorem newEta_fresh (sk : Sklearn M P) (hr0 : sk.ridge.clone sk.ridge0 = sk.ridge0) (hl0 : sk.logistic.clone sk.logistic0 = sk.logistic0)
    (a : Paper.ArmSpec ℝ) : (etaOps sk).reset (newEta sk a) = newEta sk a := by
  unfold newEta
  cases a.eta with
  | frontDoor => rfl
  | aipw =>
    show Sum.inr (AIPW.reset sk.ridge sk.logistic (AIPW.new a.nFeatures sk.ridge0 sk.logistic0 5 (1 / 4))) = _
    simp only [AIPW.reset, AIPW.new, hr0, hl0]

/-- **C77** for the three bandits of the paper, which share the arms of one list: with sklearn's `clone` satisfying its laws, a bandit that is
reset after the others have been run behaves exactly as if it was the first to run. -/
theorem C77_paper (sk : Sklearn M P) (hR : sk.ridge.CloneLaws) (hC : sk.logistic.CloneLaws) (hr0 : sk.ridge.clone sk.ridge0 = sk.ridge0)
    (hl0 : sk.logistic.clone sk.logistic0 = sk.logistic0) (alg : CIAlgorithm) (subG : Fl ℝ) (specs : List (Paper.ArmSpec ℝ)) (o : Obj M P)
    (cfg : BanditCfg Nat ℝ) (hcfg : ∀ a ∈ cfg.arms, a < specs.length) (lib : Libm ℝ) (rng : Rng W ℝ)
    (calls : List (BanditCall Nat W (Cell ℝ) ℝ)) (w0 : W) (env : BanditEnv W (Cell ℝ)) (all : Option (ExpData (Cell ℝ))) (fuel : Nat) :
    let ops := objOps (etaOps sk) lib rng
    let heap0 := heapOf o (specs.map (newArm sk alg subG))
    let used := BanditCall.exec ops calls (heap0, w0)
    let s1 := (reset ops cfg used.1, used.2)
    let s2 := (heap0, used.2)
    ((uniformRun env ops cfg all fuel s1).1 = (uniformRun env ops cfg all fuel s2).1 ∧
      (uniformRun env ops cfg all fuel s1).2.2 = (uniformRun env ops cfg all fuel s2).2.2) ∧
    ((lucbRun env ops cfg all fuel s1).1 = (lucbRun env ops cfg all fuel s2).1 ∧
      (lucbRun env ops cfg all fuel s1).2.2 = (lucbRun env ops cfg all fuel s2).2.2) ∧
    ((seRun env ops cfg all fuel s1).1 = (seRun env ops cfg all fuel s2).1 ∧
      (seRun env ops cfg all fuel s1).2.2 = (seRun env ops cfg all fuel s2).2.2) := by
  refine C77_sample_splitting (etaOps sk) (etaOps_resetLaws sk hR hC) lib rng _ cfg (fun a ha => ?_) calls w0 env all fuel
  have h' : a < specs.length := hcfg a ha
  refine ⟨newEta sk specs[a], ?_, newEta_fresh sk hr0 hl0 _⟩
  simp [heapOf, h', newArm]

/-- A regressor that remembers the mean of its labels. -/
noncomputable def meanModel : Predictor (Option ℝ) ℝ where
  fit := fun _ _ ys => (.ok (), some (ys.sum / ys.length))
  predict := fun m _ => m.getD 0
  clone := fun _ => none

/-- Estimators that learn something and forget it when they are cloned. -/
noncomputable def demoSklearn : Sklearn (Option ℝ) (Option ℝ) := ⟨meanModel, meanModel, none, none, none⟩

example : demoSklearn.ridge.CloneLaws ∧ demoSklearn.logistic.CloneLaws ∧ demoSklearn.ridge.clone demoSklearn.ridge0 = demoSklearn.ridge0 ∧
    demoSklearn.logistic.clone demoSklearn.logistic0 = demoSklearn.logistic0 ∧
    (demoSklearn.ridge.fit demoSklearn.ridge0 [[1], [2]] [3, 4]).2 ≠ demoSklearn.ridge0 ∧
    ∀ a ∈ [0, 1, 2, 3, 4], a < [(⟨"frontdoor", .frontDoor, 2, [0, 1], 1⟩ : Paper.ArmSpec ℝ), ⟨"Z_1Z_2", .aipw, 2, [0, 1], 1⟩, ⟨"V_1Z_2", .aipw, 2, [2, 1], 1⟩,
      ⟨"Z_1V_2", .aipw, 2, [0, 3], 1⟩, ⟨"V_1V_2", .aipw, 2, [2, 3], 1⟩].length :=
  ⟨⟨fun _ _ _ => rfl, fun _ => rfl⟩, ⟨fun _ _ _ => rfl, fun _ => rfl⟩, rfl, rfl, by simp [demoSklearn, meanModel], by decide⟩

end PaperBandits

/-- A nuisance parameter that forgets when it is reset. -/
theorem demoEta_resetLaws : (Arm.demoEta (α := ℚ)).ResetLaws := ⟨fun _ _ => rfl, fun _ _ => rfl, fun _ => rfl⟩

/-- Two new arms. -/
def rerunHeap : Nat → ArmObj Nat Int ℚ := fun i => ⟨"arm", Arm.demoCfg .clt true, .fin (i + 1), Arm.init 0⟩

/-- Data that vary from unit to unit and from draw to draw. -/
def rerunEnv : BanditEnv Nat Int where
  generate := fun n w => (.ok (ExpData.new (some (.d2 1 (List.replicate n [0]))) (some (List.replicate n 0))
    (some ((List.range n).map fun i => (((i * i + w) % 5 : Nat) : Int)))), w + 1)
  choice := demoEnv.choice
  choice2 := demoEnv.choice2

/-- A bandit with two arms. -/
def rerunCfg : BanditCfg Nat ℚ := ⟨[0, 1], .fin (1 / 10), .fin 0, some (.fin (9 / 10)), some (.fin 40), 6⟩

/-- C77 is about runs that see their arms' history: with the arms that LUCB used, the Uniform bandit records other bounds than
with new ones; after a reset it does not. -/
example :
    let ops := objOps Arm.demoEta Arm.demoLib (Arm.demoRng (α := ℚ))
    let used := BanditCall.exec ops [.lucb rerunEnv rerunCfg none 3] (rerunHeap, 0)
    let fin := fun s => match (uniformRun rerunEnv ops rerunCfg none 20 s).1 with
      | .ok (some bd) => (bd.ucb 0)
      | _ => []
    (∀ a ∈ rerunCfg.arms, ∃ e, (rerunHeap a).st = Arm.init e ∧ (Arm.demoEta (α := ℚ)).reset e = e) ∧
    fin (used.1, used.2) ≠ fin (rerunHeap, used.2) ∧ fin (reset ops rerunCfg used.1, used.2) = fin (rerunHeap, used.2) ∧
    (fin (rerunHeap, used.2)).length = 1 := by
  refine ⟨fun a _ => ⟨0, rfl, rfl⟩, by decide +kernel, ?_, by decide +kernel⟩
  dsimp only
  rw [(C77_sample_splitting Arm.demoEta demoEta_resetLaws Arm.demoLib Arm.demoRng rerunHeap rerunCfg (fun a _ => ⟨0, rfl, rfl⟩)
    [.lucb rerunEnv rerunCfg none 3] 0 rerunEnv none 20).1.1]

/-- Bootstrap arms: after a LUCB run the estimates are there, and a reset and a rerun give what new arms give. -/
example :
    let ops := bootArmOps ⟨.ok, 4, true⟩ Arm.demoEta (Arm.demoRng (α := ℚ)) (.fin 1)
    let heap0 : Nat → ArmState Nat Int ℚ := fun _ => Arm.init 0
    let used := BanditCall.exec ops [.uniform rerunEnv rerunCfg none 2] (heap0, 0)
    let fin := fun s => match (uniformRun rerunEnv ops rerunCfg none 20 s).1 with
      | .ok (some bd) => (bd.var 0)
      | _ => []
    (used.1 0).varEst ≠ none ∧ fin (used.1, used.2) ≠ fin (heap0, used.2) ∧ fin (reset ops rerunCfg used.1, used.2) = fin (heap0, used.2) := by
  refine ⟨by decide +kernel, by decide +kernel, ?_⟩
  dsimp only
  rw [(C77_bootstrap ⟨.ok, 4, true⟩ Arm.demoEta demoEta_resetLaws Arm.demoRng (.fin 1) (fun _ => Arm.init 0) rerunCfg (fun a _ => ⟨0, rfl, rfl⟩)
    [.uniform rerunEnv rerunCfg none 2] 0 rerunEnv none 20).1.1]

end Verif
