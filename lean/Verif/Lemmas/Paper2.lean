import Verif.Lemmas.Paper
import Verif.Lemmas.Data2
import Verif.Spec.Paper
import Mathlib.Algebra.BigOperators.Group.List.Basic

/-!
# Lemmas about the coordinate masks of `generate_example_from_cpd`
-/

set_option linter.unusedSectionVars false
set_option linter.unusedSimpArgs false

namespace Verif
namespace Paper

theorem cumsum_get (acc : Nat) (l : List Nat) (i : Nat) (h : i < l.length) :
    (cumsum acc l)[i]? = some (acc + (l.take (i + 1)).sum) := by
  induction l generalizing acc i with
  | nil => simp at h
  | cons d ds ih =>
    cases i with
    | zero => simp [cumsum]
    | succ i =>
      simp only [cumsum, List.getElem?_cons_succ]
      rw [ih _ _ (by simpa using h), List.take_succ_cons, List.sum_cons, Nat.add_assoc]

theorem sum_take_succ (l : List Nat) (i : Nat) : (l.take (i + 1)).sum = (l.take i).sum + l.getD i 0 := by
  rw [List.take_add_one, List.sum_append, List.getD_eq_getElem?_getD]
  cases l[i]? <;> simp

theorem blocks_ok (off : Nat) (dims : List Nat) (M : Nat) (h : M < dims.length) :
    blocks off (cumsum 0 dims) M = .ok ((List.range M).map fun i => segment off dims (i + 1)) := by
  unfold blocks
  apply ExpData.mapM_ok
  intro i hi
  have hi : i < M := by simpa using hi
  rw [at', cumsum_get _ _ _ (by omega), at', cumsum_get _ _ _ (by omega)]
  simp only [bind, Except.bind, pure, Except.pure, segment]
  rw [sum_take_succ dims (i + 1)]
  congr 2
  omega
  omega

theorem zIdx_ok (zDim : List Nat) (M : Nat) (h : M < zDim.length) :
    zIdx zDim M = .ok ((List.range (M + 1)).map (segment 0 zDim)) := by
  unfold zIdx
  rw [blocks_ok _ _ _ h]
  obtain ⟨d0, l, rfl⟩ : ∃ d0 l, zDim = d0 :: l := by
    cases zDim with
    | nil => simp at h
    | cons a l => exact ⟨a, l, rfl⟩
  simp only [at', bind, Except.bind, pure, Except.pure, List.getElem?_cons_zero, List.range_succ_eq_map, List.map_cons,
    List.map_map]
  congr 1
  simp [segment, List.range_eq_range']

theorem vIdx_ok (zDim vDim : List Nat) (M : Nat) (h : M < vDim.length) :
    vIdx zDim vDim M = .ok ([] :: (List.range M).map fun i => segment zDim.sum vDim (i + 1)) := by
  unfold vIdx
  rw [blocks_ok _ _ _ h]
  rfl

/-- The choices in the order in which the code enumerates them. -/
def choices : Nat → List (List Bool)
  | 0 => [[]]
  | n + 1 => (choices n).map (· ++ [true]) ++ (choices n).map (· ++ [false])

theorem mem_choices (n : Nat) : ∀ c, c ∈ choices n ↔ c.length = n := by
  induction n with
  | zero => intro c; simp [choices]
  | succ n ih =>
    intro c
    simp only [choices, List.mem_append, List.mem_map]
    constructor
    · rintro (⟨a, h, rfl⟩ | ⟨a, h, rfl⟩) <;> simp [(ih a).mp h]
    · intro h
      have hc : c ≠ [] := by rintro rfl; simp at h
      rw [← List.dropLast_append_getLast hc] at h ⊢
      have hl : c.dropLast ∈ choices n := (ih _).mpr (by simp at h ⊢; omega)
      cases c.getLast hc
      · exact Or.inr ⟨_, hl, rfl⟩
      · exact Or.inl ⟨_, hl, rfl⟩

theorem choices_nodup (n : Nat) : (choices n).Nodup := by
  induction n with
  | zero => simp [choices]
  | succ n ih =>
    have hinj : ∀ b : Bool, Function.Injective fun c : List Bool => c ++ [b] := fun b c c' h => List.append_cancel_right h
    rw [choices, List.nodup_append]
    refine ⟨ih.map (hinj _), ih.map (hinj _), ?_⟩
    intro a ha b hb hab
    simp only [List.mem_map] at ha hb
    obtain ⟨x, -, rfl⟩ := ha
    obtain ⟨y, -, rfl⟩ := hb
    have := (List.append_inj' hab rfl).2
    simp at this

theorem choices_length (n : Nat) : (choices n).length = 2 ^ n := by
  induction n with
  | zero => rfl
  | succ n ih => simp [choices, ih, pow_succ]; omega

theorem spell_append (i : Nat) (c : List Bool) (b : Bool) :
    spell i (c ++ [b]) = spell i c ++ (if b then "Z_" else "V_") ++ toString (i + c.length) := by
  induction c generalizing i with
  | nil => simp [spell]
  | cons a c ih =>
    simp only [List.cons_append, spell, ih, List.length_cons, String.append_assoc]
    congr 5
    omega

theorem choiceCoords_append (z v : Nat → List Nat) (i : Nat) (c : List Bool) (b : Bool) :
    choiceCoords z v i (c ++ [b]) = choiceCoords z v i c ++ (if b then z (i + c.length) else v (i + c.length)) := by
  induction c generalizing i with
  | nil => simp [choiceCoords]
  | cons a c ih =>
    simp only [List.cons_append, choiceCoords, ih, List.length_cons, List.append_assoc]
    congr 3 <;> congr 1 <;> omega

theorem choiceCost_append {α : Type} [Field α] (z v : α) (c : List Bool) (b : Bool) :
    choiceCost z v (c ++ [b]) = (if b then z else v) + choiceCost z v c := by
  simp [choiceCost, add_comm]

/-- A name determines the choice. -/
theorem spell_inj (c : List Bool) : ∀ (i : Nat) (c' : List Bool), c.length = c'.length → spell i c = spell i c' → c = c' := by
  induction c using List.reverseRecOn with
  | nil =>
    intro i c' h _
    exact (List.length_eq_zero_iff.mp h.symm).symm
  | append_singleton c b ih =>
    intro i c' hl h
    have hc : c' ≠ [] := by rintro rfl; simp at hl
    rw [← List.dropLast_append_getLast hc] at hl h ⊢
    generalize c'.dropLast = c1 at hl h ⊢
    generalize c'.getLast hc = b1 at hl h ⊢
    have hl' : c.length = c1.length := by simpa using hl
    rw [spell_append, spell_append, hl'] at h
    have h := congrArg String.toList h
    simp only [String.toList_append] at h
    have h := List.append_cancel_right h
    cases b <;> cases b1
    · simp only [Bool.false_eq_true, if_false] at h
      rw [ih i c1 hl' (String.toList_inj.mp (List.append_cancel_right h))]
    · have := (List.append_inj' h (by decide +kernel)).2
      exact absurd this (by decide +kernel)
    · have := (List.append_inj' h (by decide +kernel)).2
      exact absurd this (by decide +kernel)
    · simp only [if_true] at h
      rw [ih i c1 hl' (String.toList_inj.mp (List.append_cancel_right h))]

theorem selectionMasks_ok {α : Type} [Field α] (zs vs : List (List Nat)) (z v : Nat → List Nat) (zc vc : α) (n : Nat) (hn : n ≠ 0)
    (hz : ∀ i, 1 ≤ i → i ≤ n → zs[i]? = some (z i)) (hv : ∀ i, 1 ≤ i → i ≤ n → vs[i]? = some (v i)) :
    selectionMasks zs vs zc vc n =
      .ok ((choices n).map (choiceCoords z v 1), (choices n).map (spell 1), (choices n).map (choiceCost zc vc)) := by
  induction n with
  | zero => exact absurd rfl hn
  | succ n ih =>
    cases n with
    | zero =>
      have e1 : spell 1 [true] = "Z_1" := by decide +kernel
      have e2 : spell 1 [false] = "V_1" := by decide +kernel
      simp [selectionMasks, at', hz 1 le_rfl le_rfl, hv 1 le_rfl le_rfl, bind, Except.bind, pure, Except.pure, choices,
        choiceCoords, choiceCost, e1, e2]
    | succ n =>
      have h := ih (by omega) (fun i h1 h2 => hz i h1 (by omega)) (fun i h1 h2 => hv i h1 (by omega))
      rw [selectionMasks, h]
      simp only [at', hz (n + 2) (by omega) le_rfl, hv (n + 2) (by omega) le_rfl, bind, Except.bind, pure, Except.pure]
      rw [show choices (n + 1 + 1) = (choices (n + 1)).map (· ++ [true]) ++ (choices (n + 1)).map (· ++ [false]) from rfl]
      simp only [List.map_append, List.map_map]
      have hlen : ∀ c ∈ choices (n + 1), 1 + c.length = n + 2 := by
        intro c hc; rw [(mem_choices _ c).mp hc]; omega
      congr 2
      · congr 1 <;> refine List.map_congr_left fun c hc => ?_ <;> simp [choiceCoords_append, hlen c hc]
      · congr 1
        · congr 1 <;> refine List.map_congr_left fun c hc => ?_ <;> simp [spell_append, hlen c hc, String.append_assoc]
        · congr 1 <;> refine List.map_congr_left fun c hc => ?_ <;> simp [choiceCost_append]

end Paper
end Verif
