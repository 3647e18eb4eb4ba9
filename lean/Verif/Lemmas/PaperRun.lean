import Verif.Lemmas.SCM2
import Verif.Props.Paper

/-!
# Runs of the SCM of the paper, variable by variable
-/

set_option linter.unusedSectionVars false
set_option linter.unusedSimpArgs false

namespace Verif
namespace Paper
variable {β W : Type}

theorem mem_graph_vars (M : Nat) (v : String) :
    v ∈ (graph M).varNames ↔ (∃ i, 1 ≤ i ∧ i ≤ M ∧ (v = vName i ∨ v = zName i)) ∨ v = "X" ∨ v = "Z0" ∨ v = "Y" := by
  rw [graph_vars, List.mem_append, mem_pathNames]
  simp

/-- The SCM the constructor returns. -/
def paperScm (M : Nat) (cpds : Dict String (CPD β W)) : SCM String β W :=
  ⟨(graph M).varNames, (graph M).parents, cpds, (graph M).covVariables, "X", "Y"⟩

theorem paperScm_eq (M : Nat) (cpds : Dict String (CPD β W)) (S : SCM String β W) (h : scm M cpds = .ok S) : S = paperScm M cpds := by
  unfold scm SCM.new at h
  split at h
  · simp at h
  split at h
  · simp at h
  split at h
  · simp at h
  split at h
  · simp at h
  split at h
  · simp at h
  simp only [Except.ok.injEq] at h
  exact h.symm

theorem graph_positions (M : Nat) :
    (∀ i, 1 ≤ i → i ≤ M → (graph M).varNames[2 * (i - 1)]? = some (vName i) ∧ (graph M).varNames[2 * (i - 1) + 1]? = some (zName i)) ∧
    (graph M).varNames[2 * M]? = some "X" ∧ (graph M).varNames[2 * M + 1]? = some "Z0" ∧ (graph M).varNames[2 * M + 2]? = some "Y" := by
  have hvars := graph_vars M
  have hlen : (pathNames M).length = 2 * M := by
    simp [pathNames, List.length_flatMap]; omega
  refine ⟨?_, ?_, ?_, ?_⟩
  · intro i h1 h2
    rw [hvars, List.getElem?_append_left (by omega), List.getElem?_append_left (by omega)]
    exact pathNames_take M i h1 h2
  · rw [hvars, List.getElem?_append_right (by omega), hlen]; simp
  · rw [hvars, List.getElem?_append_right (by omega), hlen]; simp
  · rw [hvars, List.getElem?_append_right (by omega), hlen]; simp

/-- The draws of a run, in order. -/
theorem paper_run (M n : Nat) (hM : 1 ≤ M) (cpds : Dict String (CPD β W)) (cX cZ0 cY : CPD β W) (cV cZ : Nat → CPD β W)
    (hX : cpds.get? "X" = some cX) (hY : cpds.get? "Y" = some cY) (hZ0 : cpds.get? "Z0" = some cZ0)
    (hV : ∀ i, 1 ≤ i → i ≤ M → cpds.get? (vName i) = some (cV i) ∧ cpds.get? (zName i) = some (cZ i))
    (s : String → Arr β) (ws : List W) (hrun : SCM.IsRun (paperScm M cpds) n s ws) (w w' : W) (hw : ws.head? = some w) (hw' : ws.getLast? = some w') :
    ∃ wAt : String → W, wAt "V1" = w ∧
      (∀ i, 1 ≤ i → i ≤ M → cV i n [] (wAt (vName i)) = (.ok (s (vName i)), wAt (zName i))) ∧
      (∀ i, 1 ≤ i → i < M → cZ i n [s (vName i)] (wAt (zName i)) = (.ok (s (zName i)), wAt (vName (i + 1)))) ∧
      cZ M n [s (vName M)] (wAt (zName M)) = (.ok (s (zName M)), wAt "X") ∧
      cX n ((List.range M).map fun i => s (vName (i + 1))) (wAt "X") = (.ok (s "X"), wAt "Z0") ∧
      cZ0 n [s "X"] (wAt "Z0") = (.ok (s "Z0"), wAt "Y") ∧
      cY n ((List.range (M + 1)).map fun i => s (zName i)) (wAt "Y") = (.ok (s "Y"), w') := by
  obtain ⟨q1, q2, q3, q4⟩ := graph_positions M
  have inv := graphInv M
  have hp : (graph M).parents = ((List.range' 1 M).foldl graphStep graphInit).parents := rfl
  let wAt : String → W := fun v => (ws[(graph M).varNames.idxOf v]?).getD w
  have hat : ∀ (j : Nat) (v : String) (u : W), (graph M).varNames[j]? = some v → ws[j]? = some u → wAt v = u := by
    intro j v u hj hu
    have hlt : j < (graph M).varNames.length := by
      by_contra hc; rw [List.getElem?_eq_none (by omega)] at hj; simp at hj
    have : (graph M).varNames.idxOf v = j := by
      have h1 : (graph M).varNames[j] = v := by simpa [hlt] using hj
      rw [← h1]
      exact List.Nodup.idxOf_getElem (graph_nodup M) j hlt
    simp only [wAt, this, hu, Option.getD_some]
  have step : ∀ (j : Nat) (v : String) (c : CPD β W) (ps : List String), (graph M).varNames[j]? = some v → cpds.get? v = some c → (graph M).parents.get? v = some ps →
      ∃ w1, ws[j + 1]? = some w1 ∧ c n (ps.map s) (wAt v) = (.ok (s v), w1) := by
    intro j v c ps hj hc hps
    obtain ⟨ps', cpd, w1, w2, h1, h2, h3, h4, -, h6⟩ := hrun.draw j v hj
    have e1 : ps' = ps := by
      have : (graph M).parents.get? v = some ps' := h1
      rw [hps] at this; simpa using this.symm
    have e2 : cpd = c := by
      have : cpds.get? v = some cpd := h2
      rw [hc] at this; simpa using this.symm
    subst e1; subst e2
    exact ⟨w2, h4, by rw [hat j v w1 hj h3]; exact h6⟩
  have hlen : ws.length = 2 * M + 4 := by
    rw [hrun.steps]
    have : (paperScm M cpds).varNames = pathNames M ++ ["X", "Z0", "Y"] := graph_vars M
    rw [this]
    simp [pathNames, List.length_flatMap]; omega
  refine ⟨wAt, ?_, ?_, ?_, ?_, ?_, ?_, ?_⟩
  · have h0 : ws[0]? = some w := by rw [← List.head?_eq_getElem?]; exact hw
    have := (q1 1 le_rfl hM).1
    have hv1 : vName 1 = "V1" := by decide +kernel
    rw [hv1] at this
    exact hat 0 _ _ (by simpa using this) h0
  · intro i h1 h2
    obtain ⟨w1, a, b⟩ := step _ _ _ _ (q1 i h1 h2).1 (hV i h1 h2).1 (by rw [hp]; exact inv.v i h1 h2)
    rw [hat _ _ _ (q1 i h1 h2).2 a]
    exact b
  · intro i h1 h2
    obtain ⟨w1, a, b⟩ := step _ _ _ _ (q1 i h1 h2.le).2 (hV i h1 h2.le).2 (by rw [hp]; exact inv.z i h1 h2.le)
    have := (q1 (i + 1) (by omega) (by omega)).1
    rw [show 2 * (i + 1 - 1) = 2 * (i - 1) + 1 + 1 by omega] at this
    rw [hat _ (vName (i + 1)) _ this a]
    exact b
  · obtain ⟨w1, a, b⟩ := step _ _ _ _ (q1 M hM le_rfl).2 (hV M hM le_rfl).2 (by rw [hp]; exact inv.z M hM le_rfl)
    rw [show 2 * (M - 1) + 1 + 1 = 2 * M by omega] at a
    rw [hat _ _ _ q2 a]
    exact b
  · obtain ⟨w1, a, b⟩ := step _ _ _ _ q2 hX (by rw [hp]; exact inv.x)
    rw [hat _ _ _ q3 a]
    rw [← b, List.range_eq_range', List.range'_eq_map_range]
    simp [List.range'_eq_map_range, Function.comp_def, Nat.add_comm]
  · obtain ⟨w1, a, b⟩ := step _ _ _ _ q3 hZ0 (by rw [hp]; exact inv.z0)
    rw [hat _ _ _ q4 a]
    exact b
  · obtain ⟨w1, a, b⟩ := step _ _ _ _ q4 hY (by rw [hp]; exact inv.y)
    have : w1 = w' := by
      rw [List.getLast?_eq_getElem?, hlen] at hw'
      have e : 2 * M + 4 - 1 = 2 * M + 2 + 1 := by omega
      rw [e, a] at hw'
      simpa using hw'
    rw [← this, ← b, List.range_succ_eq_map, z0_eq]
    simp [List.range'_eq_map_range, Function.comp_def, Nat.add_comm]

theorem paper_valid (M : Nat) (cpds : Dict String (CPD β W)) (hX : cpds.get? "X" ≠ none) (hY : cpds.get? "Y" ≠ none) (hZ0 : cpds.get? "Z0" ≠ none)
    (hV : ∀ i, 1 ≤ i → i ≤ M → cpds.get? (vName i) ≠ none ∧ cpds.get? (zName i) ≠ none) :
    scm M cpds = .ok (paperScm M cpds) ∧
    SCM.Valid (paperScm M cpds).varNames (paperScm M cpds).parents cpds (paperScm M cpds).covVariables "X" "Y" ∧ (paperScm M cpds).Ordered := by
  obtain ⟨S, h1, h2, h3, h4, h5, h6, h7, -⟩ := C60_well_formed M cpds hX hY hZ0 hV
  have hS := paperScm_eq M cpds S h1
  subst hS
  refine ⟨h1, ⟨?_, ?_, ?_, ?_, ?_⟩, h7⟩
  · intro v hv
    obtain ⟨ps, e, -⟩ := h6 v hv
    rw [e]; simp
  · intro v hv
    rcases (mem_graph_vars M v).mp hv with ⟨i, a, b, rfl | rfl⟩ | rfl | rfl | rfl
    · exact (hV i a b).1
    · exact (hV i a b).2
    · exact hX
    · exact hZ0
    · exact hY
  · exact (mem_graph_vars M _).mpr (by simp)
  · exact (mem_graph_vars M _).mpr (by simp)
  · intro v hv
    have hv : v ∈ (graph M).covVariables := hv
    rw [(graph_inv M).1, List.mem_cons, mem_pathNames] at hv
    refine (mem_graph_vars M _).mpr ?_
    rcases hv with rfl | h
    · simp
    · exact Or.inl h

end Paper
end Verif
