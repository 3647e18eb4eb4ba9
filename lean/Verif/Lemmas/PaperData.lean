import Verif.Lemmas.PaperSafe
import Verif.Lemmas.SafeData
import Verif.Props.Rerun

/-!
# Runs of the bandits of the paper on a fixed dataset
-/

set_option linter.unusedSectionVars false
set_option linter.unusedSimpArgs false

namespace Verif
namespace PaperBandits
open Section5 Arm Paper Bandit
variable {W M P : Type}

/-- a batch of a good dataset -/
theorem slice_good {k n : Nat} {x0 x1 : Cell ℝ} {all : ExpData (Cell ℝ)} (h : GoodData k x0 x1 n all) (i u : Nat) (hi : i + u ≤ all.nUnits) :
    ∃ d, all.slice i (i + u) = .ok d ∧ GoodData k x0 x1 u d ∧ d.nUnits = u := by
  obtain ⟨h1, h2, h3, h4⟩ := goodData_iff.1 h
  have hp := ExpData.pick_isSelection all h1 (ExpData.sliceIdx all.nUnits i (i + u)) (fun i hi => ExpData.mem_sliceIdx_lt hi)
  have hn : (all.pick (ExpData.sliceIdx all.nUnits i (i + u))).nUnits = u := by
    have := slice_units all h1 i (i + u) (ExpData.slice_eq_pick all h1 ..)
    omega
  refine ⟨_, ExpData.slice_eq_pick all h1 .., goodData_iff.2 ⟨hp.wf, h2.trans hp.kind, hn.ge, fun p hp' => ?_⟩, hn⟩
  rw [hp.units_eq] at hp'
  obtain ⟨j, hj, rfl⟩ := List.mem_map.1 hp'
  exact h4 _ (List.mem_map_of_mem (List.mem_range.2 (ExpData.mem_sliceIdx_lt hj)))

variable {sk : Sklearn M P} {alg : CIAlgorithm} {subG : Fl ℝ} {specs : List (ArmSpec ℝ)} {k : Nat} {l : ℝ} {units : Nat} {ex : Example W M P}

theorem Runnable.reliableOn (h : Runnable sk alg subG specs k l units ex) (rng : Rng W ℝ) (conf : Option (Fl ℝ)) {n : Nat} {all : ExpData (Cell ℝ)}
    (hall : GoodData k (.int 0) (.int 1) n all) :
    ReliableOn all (objOps (etaOps sk) realLib rng) ⟨List.range specs.length, .fin (1 / 20), .fin 0, conf, some (.fin l), units⟩
      (ArmIs sk alg subG specs) (ArmUsed sk alg subG specs) (fun d => GoodData k (.int 0) (.int 1) 2 d ∧ d.nUnits = units) where
  batch := by
    intro i hi
    obtain ⟨d, h1, h2, h3⟩ := slice_good hall i units hi
    exact ⟨d, h1, h2.mono h.un, h3⟩
  update := by
    intro i hi d o w hd ho
    obtain ⟨r, o', w', e1, e2, e3⟩ := obj_update (cfg := ⟨List.range specs.length, .fin (1 / 20), .fin 0, conf, some (.fin l), units⟩) h.skl rng h.good h.cfg rfl rfl hd.1 (ho.elim id And.left) w
    exact ⟨r, o', w', e1, e2, by rw [hd.2] at e3; exact e3⟩
  estimates := obj_estimates rng h.good _

/-- after any calls and a reset the arms are ready for a run, and have no data -/
theorem reset_ready (h : Runnable sk alg subG specs k l units ex) (hR : sk.ridge.CloneLaws) (hC : sk.logistic.CloneLaws)
    (hr0 : sk.ridge.clone sk.ridge0 = sk.ridge0) (hl0 : sk.logistic.clone sk.logistic0 = sk.logistic0) (rng : Rng W ℝ) (o : Obj M P)
    (calls : List (BanditCall Nat W (Cell ℝ) ℝ)) (w : W) (cfg : BanditCfg Nat ℝ) (hcfg : cfg.arms = List.range specs.length) :
    ∀ a ∈ List.range specs.length, Upto (objOps (etaOps sk) realLib rng) (ArmIs sk alg subG specs) 0 a
      (reset (objOps (etaOps sk) realLib rng) cfg (BanditCall.exec (objOps (etaOps sk) realLib rng) calls (heapOf o ex.arms, w)).1 a) := by
  intro a ha
  have ha' : a < specs.length := by simpa using ha
  have hag := (reset_agree (Core := ObjCore) (Full := ObjFull) (resettable_obj (etaOps sk) (etaOps_resetLaws sk hR hC) realLib rng) (heapOf o ex.arms) cfg
    (fun b hb => by
      have h' : b < specs.length := by rw [hcfg] at hb; simpa using hb
      refine fresh_obj (etaOps sk) realLib rng (e := newEta sk specs[b]) ?_ (newEta_fresh sk hr0 hl0 _)
      simp [heapOf, h.arms_eq, h', newArm]) calls w).1.2 a (by rw [hcfg]; exact ha)
  obtain ⟨⟨c1, c2, c3, c4, c5⟩, -⟩ := hag
  dsimp only at c1 c2 c3 c4 c5
  have hnew := armIs_new (sk := sk) (alg := alg) (subG := subG) h.good o a ha'
  rw [← h.arms_eq] at hnew
  have hsp : (heapOf o ex.arms a).st.split = none := by simp [heapOf, h.arms_eq, ha', newArm, Arm.init]
  refine ⟨?_, ?_⟩
  · obtain ⟨s, e1, e2, e3, e4, e5⟩ := hnew
    exact ⟨s, e1, c1.trans e2, c2.trans e3, by rw [c3]; exact e4, Or.inl (c5.trans hsp)⟩
  · show ssNumUnits _ ≤ 0
    simp [ssNumUnits, c5, hsp]

end PaperBandits
end Verif
