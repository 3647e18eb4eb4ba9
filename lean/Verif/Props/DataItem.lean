import Verif.Lemmas.DataItem
import Verif.Props.Data

/-!
# C95: `ExpData.__getitem__` selects units
-/

namespace Verif
namespace ExpData
variable {β : Type}

/-- **C95 (slices)** `d[start:stop:step]` consists of the units at the positions that the slice denotes, in that order, with covariates,
exposures and responses aligned. -/
theorem C95_slice (d : ExpData β) (hd : d.WF) (start stop step : Option Int) (h : step ≠ some 0) :
    ∃ is f, d.getItem (.slice start stop step) = .ok (.data f) ∧ IsSlice d.nUnits start stop step is ∧ IsSelection d f is := by
  obtain ⟨is, h1, h2⟩ := sliceIndices_ok d.nUnits start stop step h
  refine ⟨is, d.pick is, getItem_ok d hd (by simp) h1, h2, pick_isSelection d hd is fun i hi => ?_⟩
  unfold IsSlice at h2
  by_cases hst : 0 < step.getD 1
  · simp only [if_pos hst] at h2
    exact ((h2.2 i).mp hi).1
  · simp only [if_neg hst] at h2
    have := ((h2.2 i).mp hi).1
    omega

example : demo.WF ∧ (some (-2) : Option Int) ≠ some 0 ∧
    ((sliceIndices 5 (some (-1)) none (some (-2))).toOption = some [4, 2, 0]) ∧ (sliceIndices 5 (some (-9)) (some 9) (some 3)).toOption = some [0, 3] ∧
    demo.nUnits = 5 :=
  ⟨demo_wf, by decide, by decide, by decide, rfl⟩

/-- two lists of positions that a slice denotes are equal: `IsSlice` determines the list -/
theorem C95_slice_unique (n : Nat) (start stop step : Option Int) {is js : List Nat} (h1 : IsSlice n start stop step is)
    (h2 : IsSlice n start stop step js) : is = js := by
  unfold IsSlice at h1 h2
  by_cases hst : 0 < step.getD 1
  · simp only [if_pos hst] at h1 h2
    refine List.Perm.eq_of_pairwise (le := (· < ·)) (fun a b _ _ hab hba => absurd hab (lt_asymm hba)) h1.1 h2.1
      ((List.perm_ext_iff_of_nodup (h1.1.imp ne_of_lt) (h2.1.imp ne_of_lt)).mpr fun i => (h1.2 i).trans (h2.2 i).symm)
  · simp only [if_neg hst] at h1 h2
    refine List.Perm.eq_of_pairwise (le := (· > ·)) (fun a b _ _ hab hba => absurd hab (lt_asymm hba)) h1.1 h2.1
      ((List.perm_ext_iff_of_nodup (h1.1.imp ne_of_gt) (h2.1.imp ne_of_gt)).mpr fun i => (h1.2 i).trans (h2.2 i).symm)

example : ∃ is, IsSlice 5 (some (-1)) none (some (-2)) is ∧ is ≠ [] := by
  obtain ⟨is, h1, h2⟩ := sliceIndices_ok 5 (some (-1)) none (some (-2)) (by decide)
  refine ⟨is, h2, ?_⟩
  have : is = [4, 2, 0] := by
    have h3 : sliceIndices 5 (some (-1)) none (some (-2)) = .ok [4, 2, 0] := by decide
    rw [h3] at h1; injection h1 with h1; exact h1.symm
  simp [this]

/-- **C95 (step zero)** is refused. -/
theorem C95_step_zero (d : ExpData β) (hd : d.WF) (start stop : Option Int) :
    d.getItem (.slice start stop (some 0)) = .error .valueError :=
  getItem_error d hd (by simp) (by simp [Key.indices, sliceIndices])

/-- **C95 (bounds of the bandits)** With non-negative bounds and no step this is the slice the bandit algorithms draw their batches with
(C07, C42). -/
theorem C95_slice_bounds (d : ExpData β) (hd : d.WF) (s e : Nat) :
    d.getItem (.slice (some s) (some e) none) = (d.slice s e).map .data := by
  obtain ⟨is, h1, h2⟩ := sliceIndices_ok d.nUnits (some s) (some e) none (by simp)
  rw [getItem_ok d hd (key := .slice (some s) (some e) none) (by simp) h1, slice_eq_pick d hd]
  have : is = sliceIdx d.nUnits s e := by
    refine C95_slice_unique d.nUnits (some s) (some e) none h2 ?_
    rw [sliceIdx_eq_range']
    unfold IsSlice
    simp only [Option.getD_none, zero_lt_one, if_true]
    refine ⟨List.pairwise_lt_range', fun i => ?_⟩
    simp only [List.mem_range'_1, Option.map_some, Option.getD_some, Option.some.injEq, forall_eq', one_dvd, and_true, fromEnd]
    split_ifs <;> omega
  rw [this]; rfl

/-- **C95 (list of positions)** A list of integers selects the units at these positions, negative ones counted from the end, also repeatedly;
if one of them is out of range the call raises `IndexError`. -/
theorem C95_list (d : ExpData β) (hd : d.WF) (idx : List Int) :
    ((∀ i ∈ idx, (column d.nUnits i).isSome) → ∃ f, d.getItem (.list idx) = .ok (.data f) ∧ IsSelection d f (idx.filterMap (column d.nUnits))) ∧
    ((¬ ∀ i ∈ idx, (column d.nUnits i).isSome) → d.getItem (.list idx) = .error .indexError) := by
  refine ⟨fun h => ⟨_, getItem_ok d hd (by simp) (mapM_pyIndex_ok _ _ h), pick_isSelection d hd _ fun i hi => ?_⟩,
    fun h => getItem_error d hd (by simp) (mapM_pyIndex_error _ _ h)⟩
  obtain ⟨j, -, hj⟩ := List.mem_filterMap.mp hi
  unfold column at hj
  split_ifs at hj <;> simp at hj <;> omega

example : demo.WF ∧ (∀ i ∈ [0, -1, 0], (column demo.nUnits i).isSome) ∧ [0, -1, 0].filterMap (column demo.nUnits) = [0, 4, 0] ∧
    ¬ ∀ i ∈ [0, 5], (column demo.nUnits i).isSome :=
  ⟨demo_wf, by decide, by decide, by decide⟩

/-- **C95 (masks)** A boolean mask with one entry per unit selects the marked units in their order; any other mask raises `IndexError`. -/
theorem C95_mask (d : ExpData β) (hd : d.WF) (m : List Bool) :
    (m.length = d.nUnits → ∃ is f, d.getItem (.mask m) = .ok (.data f) ∧ IsSelection d f is ∧ is.Pairwise (· < ·) ∧
      ∀ i, i ∈ is ↔ m[i]? = some true) ∧
    (m.length ≠ d.nUnits → d.getItem (.mask m) = .error .indexError) := by
  refine ⟨fun h => ⟨maskIdx m, _, getItem_ok d hd (by simp) (by simp [Key.indices, h, maskIdx]),
    pick_isSelection d hd _ fun i hi => h ▸ mem_maskIdx_lt hi, maskIdx_sorted m, fun i => ?_⟩,
    fun h => getItem_error d hd (by simp) (by simp [Key.indices, h])⟩
  exact mem_maskIdx m i

example : demo.WF ∧ [true, false, true, false, false].length = demo.nUnits := ⟨demo_wf, rfl⟩

/-- **C95 is violated for an integer key**: `d[i]` is not the dataset of the unit `i`.  With 2-D covariates the result reports as many units
as the data has features, and one feature; with 1-D covariates every integer raises `IndexError`. -/
theorem C95_int_violated (d : ExpData β) (hd : d.WF) (i : Int) :
    (∀ c rows, d.cov = some (.d2 c rows) → ∀ j, column d.nUnits i = some j → ∃ row, d.cov.bind (·.row? j) = some row ∧
      d.getItem (.int i) = .ok (.single row (d.exp.bind (·[j]?)) (d.rsp.bind (·[j]?)) d.nFeatures 1)) ∧
    (∀ xs, d.cov = some (.d1 xs) → d.getItem (.int i) = .error .indexError) := by
  obtain ⟨⟨a, ha, hwf, hn, hf⟩, he, hr⟩ := hd
  constructor
  · intro c rows hc j hj
    obtain rfl : a = .d2 c rows := by rw [ha] at hc; exact Option.some.inj hc
    have hjlt : j < rows.length := by
      have hn' : d.nUnits = rows.length := hn
      unfold column at hj
      split_ifs at hj <;> simp at hj <;> omega
    have hix : pyIndex d.nUnits i = .ok j := by rw [pyIndex_eq_column, hj]
    have hopt : ∀ o : Option (List β), (∀ e, o = some e → e.length = d.nUnits) → scalarOpt i o = .ok (o.bind (·[j]?)) := by
      intro o ho
      cases o with
      | none => rfl
      | some l => simp [scalarOpt, ho l rfl, hix, bind, Except.bind, pure, Except.pure]
    refine ⟨rows[j], by simp [ha, Arr.row?, hjlt], ?_⟩
    have hlen : (rows[j]).length = d.nFeatures := (hwf _ (List.getElem_mem hjlt)).trans hf.symm
    simp only [getItem, ha, ← hn, hix, hopt _ he, hopt _ hr, bind, Except.bind, pure, Except.pure, List.getD_eq_getElem _ _ hjlt, hlen]
  · intro xs hc
    simp only [getItem, hc]
    have hs : ∀ o : Option (List β), (∃ v, scalarOpt i o = .ok v) ∨ scalarOpt i o = .error .indexError := by
      intro o
      cases o with
      | none => exact .inl ⟨_, rfl⟩
      | some l =>
        simp only [scalarOpt, pyIndex_eq_column, bind, Except.bind, pure, Except.pure]
        cases column l.length i <;> simp
    rw [pyIndex_eq_column]
    cases column (Arr.len (.d1 xs)) i with
    | none => rfl
    | some j =>
      rcases hs d.exp with ⟨v, hv⟩ | hv <;> rcases hs d.rsp with ⟨w, hw⟩ | hw <;> simp [hv, hw, bind, Except.bind]

example : demo.WF ∧ column demo.nUnits (-1) = some 4 ∧ (∃ c rows, demo.cov = some (.d2 c rows)) ∧ demo.nFeatures ≠ 1 :=
  ⟨demo_wf, by decide, ⟨_, _, rfl⟩, by decide⟩

example : demo1.WF ∧ ∃ xs, demo1.cov = some (.d1 xs) := ⟨demo1_wf, _, rfl⟩

end ExpData
end Verif
