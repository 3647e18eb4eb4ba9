import Verif.Lemmas.BanditsTest2
import Verif.Props.Bandits2

/-!
# Property C41: how LUCB breaks ties
-/

set_option linter.unusedSectionVars false
set_option linter.unusedSimpArgs false

namespace Verif
namespace Bandit
variable {I S W β α : Type} [Field α] [LinearOrder α] [IsStrictOrderedRing α] [DecidableEq I]

theorem chooseMasked_eq (env : BanditEnv W β) {arms : List I} {mask : List Bool} {l : List I} (h : selectMask arms mask = l) (h0 : 0 < l.length) (heap : I → S) (s : W) :
    chooseMasked env arms mask (heap, s) = (.ok (l.get (env.choice _ h0 s).1), heap, (env.choice _ h0 s).2) := by
  subst h
  unfold chooseMasked
  simp only [dif_pos h0]

/-- **C41** If the bounds and estimates are numbers and not all estimates are the same, the arms of a round are the results of two successive draws of the generator: the first from all arms whose upper
bound is the largest one of the arms with the lowest estimate, the second from all arms whose lower bound is the lowest one of the others. -/
theorem C41_ties (env : BanditEnv W β) {ops : ArmOps S W β α} {cfg : BanditCfg I α} {heap : I → S} {l u v : I → α}
    (hdef : ∀ a ∈ cfg.arms, (ops.ci (heap a)).1.isSome = true ∧ (ops.ci (heap a)).2.isSome = true ∧ (ops.varEst (heap a)).isSome = true)
    (hl : ∀ a ∈ cfg.arms, lcbV ops heap a = .fin (l a)) (hu : ∀ a ∈ cfg.arms, ucbV ops heap a = .fin (u a)) (hv : ∀ a ∈ cfg.arms, varV ops heap a = .fin (v a)) {b c : I}
    (hb : b ∈ cfg.arms) (hbv : ∀ a ∈ cfg.arms, v b ≤ v a) (hbu : ∀ a ∈ cfg.arms, v a = v b → u a ≤ u b) (hc : c ∈ cfg.arms) (hcv : v c ≠ v b)
    (hcl : ∀ a ∈ cfg.arms, v a ≠ v b → l c ≤ l a) (w : W) :
    ∃ h h', selectArms env ops cfg (heap, w) = (.ok [(cfg.arms.filter fun a => u a = u b).get (env.choice _ h w).1, (cfg.arms.filter fun a => l a = l c).get (env.choice _ h' (env.choice _ h w).2).1],
      heap, (env.choice _ h' (env.choice _ h w).2).2) := by
  have hL : cfg.arms.map (lcbV ops heap) = cfg.arms.map fun a => .fin (l a) := List.map_congr_left hl
  have hU : cfg.arms.map (ucbV ops heap) = cfg.arms.map fun a => .fin (u a) := List.map_congr_left hu
  have hV : cfg.arms.map (varV ops heap) = cfg.arms.map fun a => .fin (v a) := List.map_congr_left hv
  have g1 : selectMask cfg.arms (cfg.arms.map fun a => (Fl.fin (u a)).eq (.fin (u b))) = cfg.arms.filter fun a => u a = u b := by
    unfold selectMask
    rw [ExpData.filterMask_eq_filter]
    exact List.filter_congr fun a _ => by rw [Bool.eq_iff_iff, fin_eq, decide_eq_true_eq]
  have g2 : selectMask cfg.arms (cfg.arms.map fun a => (Fl.fin (l a)).eq (.fin (l c))) = cfg.arms.filter fun a => l a = l c := by
    unfold selectMask
    rw [ExpData.filterMask_eq_filter]
    exact List.filter_congr fun a _ => by rw [Bool.eq_iff_iff, fin_eq, decide_eq_true_eq]
  have h1 : 0 < (cfg.arms.filter fun a => u a = u b).length := List.length_pos_of_mem (List.mem_filter.2 ⟨hb, by simp⟩)
  have h2 : 0 < (cfg.arms.filter fun a => l a = l c).length := List.length_pos_of_mem (List.mem_filter.2 ⟨hc, by simp⟩)
  have hlow : Fl.pyMin ((cfg.arms.filter fun a => !(Fl.fin (v a)).eq (.fin (v b))).map fun a => Fl.fin (l a)) = .ok (.fin (l c)) := by
    refine pyMin_fin (fun _ _ => rfl) (List.mem_filter.2 ⟨hc, ?_⟩) fun a ha => ?_
    · rw [Bool.not_eq_true', ← Bool.not_eq_true, fin_eq]
      exact hcv
    · rw [List.mem_filter, Bool.not_eq_true', ← Bool.not_eq_true, fin_eq] at ha
      exact hcl a ha.1 ha.2
  have hhigh : Fl.pyMax ((cfg.arms.filter fun a => (Fl.fin (v a)).eq (.fin (v b))).map fun a => Fl.fin (u a)) = .ok (.fin (u b)) := by
    have hbm : b ∈ cfg.arms.filter fun a => (Fl.fin (v a)).eq (.fin (v b)) := List.mem_filter.2 ⟨hb, fin_eq.2 rfl⟩
    obtain ⟨m, hm⟩ : ∃ m, Fl.pyMax ((cfg.arms.filter fun a => (Fl.fin (v a)).eq (.fin (v b))).map fun a => Fl.fin (u a)) = .ok m := by
      rcases hx : cfg.arms.filter fun a => (Fl.fin (v a)).eq (.fin (v b)) with _ | ⟨x, xs⟩
      · rw [hx] at hbm
        simp at hbm
      · exact ⟨_, rfl⟩
    rw [hm]
    obtain ⟨a, ha, rfl⟩ := List.mem_map.1 (Fl.pyMax_mem hm)
    have := Fl.pyMax_le hm (by simp) _ (List.mem_map_of_mem hbm) (by simp)
    rw [fin_le] at this
    rw [List.mem_filter, fin_eq] at ha
    rw [le_antisymm (hbu a ha.1 ha.2) this]
  refine ⟨h1, h2, ?_⟩
  have e1 : ∀ s, chooseMasked env cfg.arms (cfg.arms.map fun a => (Fl.fin (u a)).eq (.fin (u b))) (heap, s) =
      (.ok ((cfg.arms.filter fun a => u a = u b).get (env.choice _ h1 s).1), heap, (env.choice _ h1 s).2) := chooseMasked_eq env g1 h1 heap
  have e2 : ∀ s, chooseMasked env cfg.arms (cfg.arms.map fun a => (Fl.fin (l a)).eq (.fin (l c))) (heap, s) =
      (.ok ((cfg.arms.filter fun a => l a = l c).get (env.choice _ h2 s).1), heap, (env.choice _ h2 s).2) := chooseMasked_eq env g2 h2 heap
  unfold selectArms
  rw [Py.bind_apply]
  simp only [Py.get]
  rw [collectBounds_of hdef, hL, hU, hV, lift_bind]
  simp only
  rw [pyMin_fin (fun _ _ => rfl) hb hbv, lift_bind]
  rw [if_neg (by simp [Fl.isNan])]
  simp only [List.map_map, Function.comp_def, ExpData.filterMask_map]
  rw [ExpData.filterMask_eq_filter, ExpData.filterMask_eq_filter, hhigh, hlow, lift_bind, lift_bind, Py.bind_apply, e1]
  simp only
  rw [Py.bind_apply, e2]
  rfl

/-- arms 1 and 2 have the lowest lower bounds of the arms other than 0 -/
def tiedHeap : Nat → List (Fl ℚ × Fl ℚ × Fl ℚ) × Nat
  | 0 => ([ln 0 8 1], 0)
  | _ => ([ln 2 9 5], 0)

/-- the bounds and estimates of `tiedHeap` -/
def tied (x y : ℚ) : Nat → ℚ
  | 0 => x
  | _ => y

/-- non-vacuity: the second arm is drawn from arms 1 and 2 -/
example (env : BanditEnv Nat Int) (w : Nat) : (∃ h h', selectArms env scriptOps ⟨[0, 1, 2], .fin (1 / 10), .fin 0, none, some (.fin 5), 2⟩ (tiedHeap, w) =
    (.ok [([0, 1, 2].filter fun a => tied 8 9 a = tied 8 9 0).get (env.choice _ h w).1, ([0, 1, 2].filter fun a => tied 0 2 a = tied 0 2 1).get (env.choice _ h' (env.choice _ h w).2).1], tiedHeap,
      (env.choice _ h' (env.choice _ h w).2).2)) ∧ ([0, 1, 2].filter fun a => tied 8 9 a = tied 8 9 0) = [0] ∧ ([0, 1, 2].filter fun a => tied 0 2 a = tied 0 2 1) = [1, 2] := by
  refine ⟨C41_ties env (ops := scriptOps) (cfg := ⟨[0, 1, 2], .fin (1 / 10), .fin 0, none, some (.fin 5), 2⟩) (heap := tiedHeap) (l := tied 0 2) (u := tied 8 9) (v := tied 1 5) (b := 0) (c := 1)
    ?_ ?_ ?_ ?_ ?_ ?_ ?_ ?_ ?_ ?_ w, ?_, ?_⟩ <;> decide +kernel

end Bandit
end Verif
