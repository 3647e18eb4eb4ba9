import Verif.Lemmas.Paper2
import Verif.Props.SCM

/-!
# Properties C58-C60: the example of the paper (`generate_example_from_cpd`)
-/

set_option linter.unusedSectionVars false
set_option linter.unusedSimpArgs false

namespace Verif
namespace Paper

/-! ## C58 -/

theorem latex_inj {a b : String} (h : "$" ++ a ++ "$" = "$" ++ b ++ "$") : a = b := by
  have h := congrArg String.toList h
  simp only [String.toList_append] at h
  exact String.toList_inj.mp (List.append_cancel_left (List.append_cancel_right h))

theorem spell_head (i : Nat) (b : Bool) (c : List Bool) : (spell i (b :: c)).toList.head? = some (if b then 'Z' else 'V') := by
  cases b <;> simp [spell]

theorem armList_ok {α : Type} [Field α] (zDim vDim : List Nat) (zc vc z0c : α) (M : Nat) (latex : Bool) (hM : 1 ≤ M)
    (hz : M < zDim.length) (hv : M < vDim.length) :
    armList zDim vDim zc vc z0c M latex =
      .ok (⟨"frontdoor", .frontDoor, zDim.getD 0 0, segment 0 zDim 0, z0c⟩ ::
        (choices M).map fun c =>
          ⟨if latex then "$" ++ spell 1 c ++ "$" else spell 1 c, .aipw,
            (choiceCoords (segment 0 zDim) (segment zDim.sum vDim) 1 c).length,
            choiceCoords (segment 0 zDim) (segment zDim.sum vDim) 1 c, choiceCost zc vc c⟩) := by
  have hd : ∃ d, zDim[0]? = some d := ⟨zDim[0], List.getElem?_eq_getElem (by omega)⟩
  obtain ⟨d, hd⟩ := hd
  unfold armList
  rw [zIdx_ok _ _ hz, vIdx_ok _ _ _ hv]
  simp only [bind, Except.bind, pure, Except.pure]
  have h0 : at' (List.map (segment 0 zDim) (List.range (M + 1))) 0 = .ok (segment 0 zDim 0) := by
    simp [at', List.getElem?_map, List.getElem?_range]
  have h1 : at' zDim 0 = .ok d := by simp [at', hd]
  rw [h0, h1]
  simp only
  rw [selectionMasks_ok _ _ (segment 0 zDim) (segment zDim.sum vDim) zc vc M (by omega)]
  · simp only
    congr 2
    · simp [List.getD_eq_getElem?_getD, hd]
    · cases latex
      · simp only [Bool.false_eq_true, if_false]
        rw [List.zip_map', List.zip_map', List.map_map]
        rfl
      · simp only [if_true]
        rw [List.map_map, List.zip_map', List.zip_map', List.map_map]
        rfl
  · intro i h1 h2
    rw [List.getElem?_map, List.getElem?_range (by omega)]; rfl
  · intro i h1 h2
    obtain ⟨j, rfl⟩ : ∃ j, i = j + 1 := ⟨i - 1, by omega⟩
    rw [List.getElem?_cons_succ, List.getElem?_map, List.getElem?_range (by omega)]; rfl

/-- **C58** For every number `M ≥ 1` of back-door paths (and a dimension for every variable), the arm list consists of
one front-door arm and one arm for each of the `2^M` ways of choosing `Z_i` or `V_i` on every path.  The name of an
arm spells out its choice (optionally between dollar signs), all names differ, its cost is the sum of the chosen
costs, its mask is the concatenation of the chosen index blocks and its nuisance parameter has as many features as the
mask has coordinates.  The block of `Z_i` is the `i`-th segment of `z_dim`; that of `V_i` is the `i`-th segment of
`v_dim`, shifted by the sum of `z_dim`. -/
theorem C58_enumeration {α : Type} [Field α] (zDim vDim : List Nat) (zc vc z0c : α) (M : Nat) (latex : Bool) (hM : 1 ≤ M)
    (hz : M < zDim.length) (hv : M < vDim.length) :
    ∃ (cs : List (List Bool)) (front : ArmSpec α) (arm : List Bool → ArmSpec α),
      armList zDim vDim zc vc z0c M latex = .ok (front :: cs.map arm) ∧
      cs.Nodup ∧ (∀ c, c ∈ cs ↔ c.length = M) ∧ cs.length = 2 ^ M ∧
      ((front :: cs.map arm).map (·.name)).Nodup ∧
      front.eta = .frontDoor ∧ front.coords = List.range (zDim.getD 0 0) ∧ front.nFeatures = front.coords.length ∧
      front.cost = z0c ∧
      ∀ c ∈ cs, (arm c).name = (if latex then "$" ++ spell 1 c ++ "$" else spell 1 c) ∧ (arm c).eta = .aipw ∧
        (arm c).cost = choiceCost zc vc c ∧
        (arm c).coords = choiceCoords (segment 0 zDim) (segment zDim.sum vDim) 1 c ∧
        (arm c).nFeatures = (arm c).coords.length := by
  refine ⟨_, _, _, armList_ok zDim vDim zc vc z0c M latex hM hz hv, choices_nodup M, mem_choices M, choices_length M, ?_,
    rfl, ?_, ?_, rfl, fun c hc => ⟨rfl, rfl, rfl, rfl, rfl⟩⟩
  · rw [List.map_cons, List.map_map, List.nodup_cons]
    constructor
    · simp only [List.mem_map, not_exists, not_and, Function.comp]
      intro c hc heq
      have hl := (mem_choices M c).mp hc
      obtain ⟨b, c, rfl⟩ : ∃ b c', c = b :: c' := by
        cases c with
        | nil => simp at hl; omega
        | cons b c' => exact ⟨b, c', rfl⟩
      have h := congrArg (fun s : String => s.toList.head?) heq
      have e : "frontdoor".toList.head? = some 'f' := by decide +kernel
      cases latex
      · simp only [Bool.false_eq_true, if_false] at h
        rw [spell_head, e] at h
        cases b <;> simp at h
      · simp only [if_true, String.toList_append] at h
        rw [e] at h
        simp at h
    · apply List.Nodup.map_on _ (choices_nodup M)
      intro c hc c' hc' heq
      have hl := (mem_choices M c).mp hc
      have hl' := (mem_choices M c').mp hc'
      cases latex
      · exact spell_inj c 1 c' (hl.trans hl'.symm) heq
      · exact spell_inj c 1 c' (hl.trans hl'.symm) (latex_inj heq)
  · simp [segment, List.range_eq_range']
  · simp [segment]

/-- **C58** Without back-door paths the enumeration recurses for ever. -/
theorem C58_no_paths {α : Type} [Field α] (zDim vDim : List Nat) (zc vc z0c : α) (latex : Bool) (hz : zDim ≠ []) :
    armList zDim vDim zc vc z0c 0 latex = .error .recursionError := by
  cases zDim with
  | nil => exact absurd rfl hz
  | cons d l => rfl

example : armList [2, 1, 1] [0, 3, 1] (5 : ℚ) 7 1 2 false = .ok
    [⟨"frontdoor", .frontDoor, 2, [0, 1], 1⟩, ⟨"Z_1Z_2", .aipw, 2, [2, 3], 10⟩, ⟨"V_1Z_2", .aipw, 4, [4, 5, 6, 3], 12⟩,
      ⟨"Z_1V_2", .aipw, 2, [2, 7], 12⟩, ⟨"V_1V_2", .aipw, 4, [4, 5, 6, 7], 14⟩] := by decide +kernel

/-! ## C60 -/

theorem graph_inv (M : Nat) : (graph M).covVariables = "Z0" :: pathNames M ∧ (graph M).parents =
    ((List.range' 1 M).foldl graphStep graphInit).parents := ⟨(graphInv M).cov, rfl⟩

theorem mem_take_of {γ : Type} {l : List γ} {i j : Nat} {x : γ} (h : l[i]? = some x) (hij : i < j) : x ∈ l.take j := by
  rw [List.mem_iff_getElem?]
  exact ⟨i, by rw [List.getElem?_take_of_lt hij, h]⟩

/-- **C60** For every number of back-door paths: the constructor accepts the paper's graph as soon as the CPD dictionary
has an entry for every variable; the parents of each variable are exactly its predecessors in the paper's graph; every
variable comes after its parents, so with CPDs that do not raise and return one row per unit `generate` always
succeeds. -/
theorem C60_well_formed {β W : Type} (M : Nat) (cpds : Dict String (CPD β W))
    (hX : cpds.get? "X" ≠ none) (hY : cpds.get? "Y" ≠ none) (hZ0 : cpds.get? "Z0" ≠ none)
    (hV : ∀ i, 1 ≤ i → i ≤ M → cpds.get? ("V" ++ toString i) ≠ none ∧ cpds.get? ("Z" ++ toString i) ≠ none) :
    ∃ S : SCM String β W, scm M cpds = .ok S ∧ S.cpds = cpds ∧ S.varNames.Nodup ∧ S.treatment = "X" ∧ S.response = "Y" ∧
      (∀ v ∈ S.varNames, ∃ ps, S.parents.get? v = some ps ∧ ∀ p, p ∈ ps ↔ Edge M p v) ∧
      S.Ordered ∧
      ∀ n, S.TotalCpds n → ∀ w, ∃ smp w', S.generate n w = (.ok smp, w') := by
  have inv := graphInv M
  have hp : (graph M).parents = ((List.range' 1 M).foldl graphStep graphInit).parents := rfl
  have hvars := graph_vars M
  have hx : ("X" : String) ≠ "Y" := by decide +kernel
  have hzx : ("Z0" : String) ≠ "X" := by decide +kernel
  have hzy : ("Z0" : String) ≠ "Y" := by decide +kernel
  have hmem : ∀ v, v ∈ (graph M).varNames ↔ (∃ i, 1 ≤ i ∧ i ≤ M ∧ (v = vName i ∨ v = zName i)) ∨ v = "X" ∨ v = "Z0" ∨ v = "Y" := by
    intro v
    rw [hvars, List.mem_append, mem_pathNames]
    simp
  have hvalid : SCM.Valid (graph M).varNames (graph M).parents cpds (graph M).covVariables "X" "Y" := by
    refine ⟨?_, ?_, ?_, ?_, ?_⟩
    · intro v hv
      rw [hp]
      rcases (hmem v).mp hv with ⟨i, h1, h2, rfl | rfl⟩ | rfl | rfl | rfl
      · rw [inv.v i h1 h2]; simp
      · rw [inv.z i h1 h2]; simp
      · rw [inv.x]; simp
      · rw [inv.z0]; simp
      · rw [inv.y]; simp
    · intro v hv
      rcases (hmem v).mp hv with ⟨i, h1, h2, rfl | rfl⟩ | rfl | rfl | rfl
      · exact (hV i h1 h2).1
      · exact (hV i h1 h2).2
      · exact hX
      · exact hZ0
      · exact hY
    · rw [hmem]; simp
    · rw [hmem]; simp
    · intro v hv
      rw [(graph_inv M).1, List.mem_cons, mem_pathNames] at hv
      rw [hmem]
      rcases hv with rfl | h
      · simp
      · exact Or.inl h
  rcases SCM.C16_constructor (graph M).varNames (graph M).parents cpds (graph M).covVariables "X" "Y" with ⟨-, hok⟩ | ⟨hn, -⟩
  swap
  · exact absurd hvalid hn
  have hord : SCM.Ordered (⟨(graph M).varNames, (graph M).parents, cpds, (graph M).covVariables, "X", "Y"⟩ : SCM String β W) := by
    intro j v ps hj hps p hpm
    dsimp only at hj hps ⊢
    have hnd := graph_nodup M
    have hpos : ∀ i u, (graph M).varNames[i]? = some u → u = v → j = i := by
      rintro i u hi rfl
      have hjl : j < (graph M).varNames.length := by
        by_contra h; rw [List.getElem?_eq_none (by omega)] at hj; simp at hj
      exact (List.getElem?_inj hjl hnd).mp (hj.trans hi.symm)
    have hlen : (pathNames M).length = 2 * M := by
      simp [pathNames, List.length_flatMap]; omega
    have hl : ∀ i, 1 ≤ i → i ≤ M → (graph M).varNames[2 * (i - 1)]? = some (vName i) ∧
        (graph M).varNames[2 * (i - 1) + 1]? = some (zName i) := by
      intro i h1 h2
      rw [hvars, List.getElem?_append_left (by omega), List.getElem?_append_left (by omega)]
      exact pathNames_take M i h1 h2
    have hlx : (graph M).varNames[2 * M]? = some "X" := by
      rw [hvars, List.getElem?_append_right (by omega), hlen]; simp
    have hlz : (graph M).varNames[2 * M + 1]? = some "Z0" := by
      rw [hvars, List.getElem?_append_right (by omega), hlen]; simp
    have hly : (graph M).varNames[2 * M + 2]? = some "Y" := by
      rw [hvars, List.getElem?_append_right (by omega), hlen]; simp
    rw [hp] at hps
    have hvm : v ∈ (graph M).varNames := List.mem_of_getElem? hj
    rcases (hmem v).mp hvm with ⟨i, h1, h2, rfl | rfl⟩ | rfl | rfl | rfl
    · rw [inv.v i h1 h2] at hps; cases hps; simp at hpm
    · rw [inv.z i h1 h2] at hps; cases hps
      simp at hpm; subst hpm
      rw [hpos _ _ (hl i h1 h2).2 rfl]
      exact mem_take_of (hl i h1 h2).1 (by omega)
    · rw [inv.x] at hps; cases hps
      simp only [List.mem_map, List.mem_range'_1] at hpm
      obtain ⟨i, hi, rfl⟩ := hpm
      rw [hpos _ _ hlx rfl]
      exact mem_take_of (hl i (by omega) (by omega)).1 (by omega)
    · rw [inv.z0] at hps; cases hps
      simp at hpm; subst hpm
      rw [hpos _ _ hlz rfl]
      exact mem_take_of hlx (by omega)
    · rw [inv.y] at hps; cases hps
      rw [hpos _ _ hly rfl]
      simp only [List.mem_cons, List.mem_map, List.mem_range'_1] at hpm
      rcases hpm with rfl | ⟨i, hi, rfl⟩
      · exact mem_take_of hlz (by omega)
      · exact mem_take_of (hl i (by omega) (by omega)).2 (by omega)
  refine ⟨_, hok, rfl, graph_nodup M, rfl, rfl, ?_, hord, ?_⟩
  · intro v hv
    dsimp only at hv ⊢
    rw [hp]
    have e1 : "Z" ++ toString 0 = "Z0" := by decide +kernel
    rcases (hmem v).mp hv with ⟨i, h1, h2, rfl | rfl⟩ | rfl | rfl | rfl
    · refine ⟨_, inv.v i h1 h2, fun p => ⟨by simp, fun h => ?_⟩⟩
      obtain ⟨f1, f2, f3, f4, f5⟩ := name_facts i
      generalize hq : vName i = q at h
      cases h with
      | vx => exact absurd hq f1
      | vz k => exact absurd hq (vName_ne_zName i k)
      | zy => exact absurd hq f2
      | xz => exact absurd hq f3
      | z0y => exact absurd hq f2
    · refine ⟨_, inv.z i h1 h2, fun p => ⟨fun h => ?_, fun h => ?_⟩⟩
      · simp at h; subst h; exact Edge.vz i h1 h2
      · obtain ⟨f1, f2, f3, f4, f5⟩ := name_facts i
        generalize hq : zName i = q at h
        cases h with
        | vx => exact absurd hq f4
        | vz k =>
          have := zName_inj (i := i) (j := k) hq
          subst this; simp [vName]
        | zy => exact absurd hq f5
        | xz => exact absurd hq (zName_ne_z0 (by omega))
        | z0y => exact absurd hq f5
    · refine ⟨_, inv.x, fun p => ⟨fun h => ?_, fun h => ?_⟩⟩
      · simp only [List.mem_map, List.mem_range'_1] at h
        obtain ⟨i, hi, rfl⟩ := h
        exact Edge.vx i (by omega) (by omega)
      · generalize hq : "X" = q at h
        cases h with
        | vx i h1 h2 => exact List.mem_map.mpr ⟨i, by simp; omega, rfl⟩
        | vz k => exact absurd hq.symm (name_facts k).2.2.2.1
        | zy => exact absurd hq hx
        | xz => exact absurd hq.symm hzx
        | z0y => exact absurd hq hx
    · refine ⟨_, inv.z0, fun p => ⟨fun h => ?_, fun h => ?_⟩⟩
      · simp at h; subst h; exact Edge.xz
      · generalize hq : "Z0" = q at h
        cases h with
        | vx => exact absurd hq hzx
        | vz k h1 => exact absurd hq.symm (zName_ne_z0 (i := k) (by omega))
        | zy => exact absurd hq hzy
        | xz => simp
        | z0y => exact absurd hq hzy
    · refine ⟨_, inv.y, fun p => ⟨fun h => ?_, fun h => ?_⟩⟩
      · simp only [List.mem_cons, List.mem_map, List.mem_range'_1] at h
        rcases h with rfl | ⟨i, hi, rfl⟩
        · exact Edge.z0y
        · exact Edge.zy i (by omega) (by omega)
      · generalize hq : "Y" = q at h
        cases h with
        | vx => exact absurd hq.symm hx
        | vz k => exact absurd hq.symm (name_facts k).2.2.2.2
        | zy i h1 h2 => exact List.mem_cons_of_mem _ (List.mem_map.mpr ⟨i, by simp; omega, rfl⟩)
        | xz => exact absurd hq.symm hzy
        | z0y => simp
  · intro n htot w
    exact (SCM.C15_generate_ordering _ n htot hvalid (by dsimp only; rw [(graph_inv M).1]; simp) (graph_nodup M) w).1 hord

end Paper
end Verif
