import Verif.Model.Paper
import Verif.Lemmas.Tabular

/-!
# Lemmas about the graph of `generate_example_from_cpd`
-/

set_option linter.unusedSectionVars false
set_option linter.unusedSimpArgs false

namespace Verif
namespace Paper

theorem digitChar_inj {i j : Nat} (hi : i < 10) (hj : j < 10) (h : i.digitChar = j.digitChar) : i = j := by
  have h1 := Nat.toNat_digitChar_sub_48_of_lt_ten hi
  rw [h, Nat.toNat_digitChar_sub_48_of_lt_ten hj] at h1
  exact h1.symm

theorem toDigits_inj (i : Nat) : ∀ j, Nat.toDigits 10 i = Nat.toDigits 10 j → i = j := by
  induction i using Nat.strongRecOn with
  | _ i ih =>
    intro j h
    rw [Nat.toDigits_eq_if (by decide), Nat.toDigits_eq_if (n := j) (by decide)] at h
    split at h <;> split at h
    · rename_i h1 h2
      exact digitChar_inj h1 h2 (by simpa using h)
    · have := congrArg List.length h
      have h3 := @Nat.length_toDigits_pos 10 (j / 10)
      simp at this
    · have := congrArg List.length h
      have h3 := @Nat.length_toDigits_pos 10 (i / 10)
      simp at this
    · rename_i h1 h2
      have h3 := List.append_inj' h rfl
      have h4 := ih (i / 10) (by omega) _ h3.1
      have h5 : i % 10 = j % 10 := digitChar_inj (by omega) (by omega) (by simpa using h3.2)
      omega

theorem toString_inj {i j : Nat} (h : toString i = toString j) : i = j :=
  toDigits_inj i j (by simpa using congrArg String.toList h)

theorem zName_inj {i j : Nat} (h : zName i = zName j) : i = j := by
  have := congrArg String.toList h
  simp only [zName, String.toList_append] at this
  exact toString_inj (String.toList_inj.mp (List.append_cancel_left this))

theorem vName_inj {i j : Nat} (h : vName i = vName j) : i = j := by
  have := congrArg String.toList h
  simp only [vName, String.toList_append] at this
  exact toString_inj (String.toList_inj.mp (List.append_cancel_left this))

theorem vName_ne_zName (i j : Nat) : vName i ≠ zName j := by
  intro h
  have := congrArg String.toList h
  simp [vName, zName] at this

theorem vName_ne_of_head (i : Nat) (s : String) (h : s.toList.head? ≠ some 'V') : vName i ≠ s := by
  rintro rfl
  simp [vName] at h

theorem zName_ne_of_head (i : Nat) (s : String) (h : s.toList.head? ≠ some 'Z') : zName i ≠ s := by
  rintro rfl
  simp [zName] at h

theorem z0_eq : "Z0" = zName 0 := by decide +kernel

theorem zName_ne_z0 {i : Nat} (h : i ≠ 0) : zName i ≠ "Z0" := by
  rw [z0_eq]
  exact fun e => h (zName_inj e)

/-- All the names that occur are different. -/
theorem name_facts (i : Nat) :
    vName i ≠ "X" ∧ vName i ≠ "Y" ∧ vName i ≠ "Z0" ∧ zName i ≠ "X" ∧ zName i ≠ "Y" :=
  ⟨vName_ne_of_head _ _ (by decide +kernel), vName_ne_of_head _ _ (by decide +kernel),
    vName_ne_of_head _ _ (by decide +kernel), zName_ne_of_head _ _ (by decide +kernel),
    zName_ne_of_head _ _ (by decide +kernel)⟩

theorem get?_appendTo (d : Dict String (List String)) (k x k' : String) :
    (appendTo d k x).get? k' = if k' = k then (d.get? k).map (· ++ [x]) else d.get? k' := by
  unfold appendTo
  split
  · rename_i h
    by_cases hk : k' = k
    · subst hk; simp [h]
    · simp [hk]
  · rename_i l h
    rw [Dict.get?_set, h]
    by_cases hk : k' = k
    · simp [hk]
    · rw [if_neg hk, if_neg (Ne.symm hk)]

/-- The names of the first `k` paths, in order. -/
def pathNames (k : Nat) : List String := (List.range' 1 k).flatMap fun i => [vName i, zName i]

/-- What is known of the local variables after `k` iterations. -/
structure GraphInv (k : Nat) (g : Graph) : Prop where
  vars : g.varNames = pathNames k
  cov : g.covVariables = "Z0" :: pathNames k
  z0 : g.parents.get? "Z0" = some ["X"]
  x : g.parents.get? "X" = some ((List.range' 1 k).map vName)
  y : g.parents.get? "Y" = some ("Z0" :: (List.range' 1 k).map zName)
  v : ∀ i, 1 ≤ i → i ≤ k → g.parents.get? (vName i) = some []
  z : ∀ i, 1 ≤ i → i ≤ k → g.parents.get? (zName i) = some [vName i]

theorem pathNames_succ (k : Nat) : pathNames (k + 1) = pathNames k ++ [vName (1 + k), zName (1 + k)] := by
  simp [pathNames, List.range'_1_concat, List.flatMap_append]

theorem graphInv (k : Nat) : GraphInv k ((List.range' 1 k).foldl graphStep graphInit) := by
  induction k with
  | zero =>
    refine ⟨rfl, rfl, by decide +kernel, by decide +kernel, by decide +kernel, ?_, ?_⟩ <;> intro i h1 h2 <;> omega
  | succ k ih =>
    rw [List.range'_1_concat, List.foldl_append]
    generalize List.foldl graphStep graphInit (List.range' 1 k) = g at ih ⊢
    obtain ⟨h1, h2, h3, h4, h5, h6, h7⟩ := ih
    have hx : ("X" : String) ≠ "Y" := by decide +kernel
    have hzx : ("Z0" : String) ≠ "X" := by decide +kernel
    have hzy : ("Z0" : String) ≠ "Y" := by decide +kernel
    obtain ⟨f1, f2, f3, f4, f5⟩ := name_facts (1 + k)
    have f6 : zName (1 + k) ≠ "Z0" := zName_ne_z0 (by omega)
    have f7 := vName_ne_zName (1 + k) (1 + k)
    simp only [List.foldl_cons, List.foldl_nil]
    refine ⟨?_, ?_, ?_, ?_, ?_, ?_, ?_⟩
    · simp [graphStep, h1, pathNames_succ]
    · simp [graphStep, h2, pathNames_succ]
    · simp [graphStep, get?_appendTo, Dict.get?_set, hzx, hzy, f3, f6, h3]
    · simp [graphStep, get?_appendTo, Dict.get?_set, hx, hx.symm, f1, f4, h4, List.range'_1_concat]
    · simp [graphStep, get?_appendTo, Dict.get?_set, hx, hx.symm, f2, f5, h5, List.range'_1_concat]
    · intro i hi1 hi2
      obtain ⟨e1, e2, e3, -, -⟩ := name_facts i
      have e4 := (vName_ne_zName i (1 + k)).symm
      simp only [graphStep, get?_appendTo, Dict.get?_set, e1, e2, e4, if_false]
      by_cases hik : i = 1 + k
      · simp [hik, f7.symm]
      · rw [if_neg (fun h => hik (vName_inj h).symm)]
        exact h6 i hi1 (by omega)
    · intro i hi1 hi2
      obtain ⟨-, -, -, e1, e2⟩ := name_facts i
      have e4 := vName_ne_zName (1 + k) i
      simp only [graphStep, get?_appendTo, Dict.get?_set, e1, e2, e4, if_false]
      by_cases hik : i = 1 + k
      · simp [hik, f7]
      · rw [if_neg (fun h => hik (zName_inj h).symm)]
        exact h7 i hi1 (by omega)

theorem graph_vars (M : Nat) : (graph M).varNames = pathNames M ++ ["X", "Z0", "Y"] := by
  simp [graph, (graphInv M).vars]

theorem mem_pathNames {k : Nat} {s : String} :
    s ∈ pathNames k ↔ ∃ i, 1 ≤ i ∧ i ≤ k ∧ (s = vName i ∨ s = zName i) := by
  simp only [pathNames, List.mem_flatMap, List.mem_range'_1, List.mem_cons, List.not_mem_nil, or_false]
  constructor
  · rintro ⟨i, h, h'⟩; exact ⟨i, by omega, by omega, h'⟩
  · rintro ⟨i, h1, h2, h'⟩; exact ⟨i, by omega, h'⟩

theorem pathNames_nodup (k : Nat) : (pathNames k).Nodup := by
  induction k with
  | zero => simp [pathNames]
  | succ k ih =>
    rw [pathNames_succ, List.nodup_append]
    refine ⟨ih, by simpa using vName_ne_zName _ _, ?_⟩
    intro a ha b hb hab
    subst hab
    obtain ⟨i, h1, h2, h3⟩ := mem_pathNames.mp ha
    simp only [List.mem_cons, List.not_mem_nil, or_false] at hb
    rcases h3 with rfl | rfl <;> rcases hb with hb | hb
    · have := vName_inj hb; omega
    · exact vName_ne_zName _ _ hb
    · exact vName_ne_zName _ _ hb.symm
    · have := zName_inj hb; omega

theorem graph_nodup (M : Nat) : (graph M).varNames.Nodup := by
  rw [graph_vars, List.nodup_append]
  refine ⟨pathNames_nodup M, by decide +kernel, ?_⟩
  intro a ha b hb hab
  subst hab
  obtain ⟨i, h1, h2, h3⟩ := mem_pathNames.mp ha
  obtain ⟨e1, e2, e3, e4, e5⟩ := name_facts i
  have e6 : zName i ≠ "Z0" := zName_ne_z0 (by omega)
  simp only [List.mem_cons, List.not_mem_nil, or_false] at hb
  rcases h3 with rfl | rfl <;> simp_all

/-- Everything before a position contains an element of which an initial segment is long enough. -/
theorem pathNames_take (k i : Nat) (h1 : 1 ≤ i) (h2 : i ≤ k) :
    (pathNames k)[2 * (i - 1)]? = some (vName i) ∧ (pathNames k)[2 * (i - 1) + 1]? = some (zName i) := by
  induction k with
  | zero => omega
  | succ k ih =>
    have hlen : (pathNames k).length = 2 * k := by
      simp [pathNames, List.length_flatMap]; omega
    rw [pathNames_succ]
    by_cases h : i ≤ k
    · rw [List.getElem?_append_left (by omega), List.getElem?_append_left (by omega)]
      exact ih h
    · obtain rfl : i = 1 + k := by omega
      rw [List.getElem?_append_right (by omega), List.getElem?_append_right (by omega), hlen]
      have : 2 * (1 + k - 1) - 2 * k = 0 := by omega
      have h3 : 2 * (1 + k - 1) + 1 - 2 * k = 1 := by omega
      simp [this, h3]

end Paper
end Verif
