import Verif.Model.Fl
import Mathlib.Algebra.Order.BigOperators.Group.List
import Mathlib.Tactic.Linarith
import Mathlib.Tactic.Positivity
import Mathlib.Algebra.Order.Ring.Basic

/-!
# Facts about floats
-/

set_option linter.unusedSectionVars false

namespace Verif
namespace Fl
variable {α : Type} [Field α] [LinearOrder α]

/-- A finite float. -/
def IsFin (x : Fl α) : Prop := ∃ a, x = fin a

theorem add_nan (x : Fl α) : add x nan = nan := by cases x <;> rfl
theorem nan_add (x : Fl α) : add nan x = nan := by cases x <;> rfl

theorem foldl_add_nan (l : List (Fl α)) : l.foldl add nan = nan := by
  induction l with
  | nil => rfl
  | cons x l ih => rw [List.foldl_cons, nan_add, ih]

theorem foldl_add_mem_nan (l : List (Fl α)) (h : nan ∈ l) (a : Fl α) : l.foldl add a = nan := by
  induction l generalizing a with
  | nil => simp at h
  | cons x l ih =>
    rw [List.foldl_cons]
    rcases List.mem_cons.mp h with h | h
    · rw [← h, add_nan, foldl_add_nan]
    · exact ih h _

theorem foldl_add_pinf (l : List (Fl α)) (a : Fl α) (h : l.foldl add a = pinf) : a = pinf ∨ pinf ∈ l := by
  induction l generalizing a with
  | nil => left; exact h
  | cons x l ih =>
    rw [List.foldl_cons] at h
    rcases ih _ h with h | h
    · cases a <;> cases x <;> simp_all [add]
    · right; simp [h]

theorem foldl_add_ninf (l : List (Fl α)) (a : Fl α) (h : l.foldl add a = ninf) : a = ninf ∨ ninf ∈ l := by
  induction l generalizing a with
  | nil => left; exact h
  | cons x l ih =>
    rw [List.foldl_cons] at h
    rcases ih _ h with h | h
    · cases a <;> cases x <;> simp_all [add]
    · right; simp [h]

theorem foldl_add_fin (l : List (Fl α)) (a : Fl α) (b : α) (h : l.foldl add a = fin b) : a.IsFin ∧ ∀ x ∈ l, x.IsFin := by
  induction l generalizing a with
  | nil => exact ⟨⟨b, h⟩, by simp⟩
  | cons x l ih =>
    rw [List.foldl_cons] at h
    obtain ⟨⟨c, hc⟩, h2⟩ := ih _ h
    have : a.IsFin ∧ x.IsFin := by
      cases a <;> cases x <;> simp_all [add, IsFin]
    exact ⟨this.1, by intro y hy; rcases List.mem_cons.mp hy with rfl | hy; exacts [this.2, h2 y hy]⟩

theorem foldl_add_map (l : List α) (a : α) : (l.map fin).foldl add (fin a) = fin (a + l.sum) := by
  induction l generalizing a with
  | nil => simp
  | cons x l ih => rw [List.map_cons, List.foldl_cons, List.sum_cons, ← add_assoc]; exact ih (a + x)

theorem sum_map_fin (l : List α) : sum (l.map fin) = fin l.sum := by
  rw [sum, foldl_add_map, zero_add]

theorem mean_nil : mean ([] : List (Fl α)) = nan := by simp [mean, sum, div, infTimes]

variable [IsStrictOrderedRing α]

theorem mean_map_fin (l : List α) (h : l ≠ []) : mean (l.map fin) = fin (l.sum / l.length) := by
  have : (l.length : α) ≠ 0 := by simpa using h
  simp only [mean, sum_map_fin, List.length_map, div, this, if_false]

theorem mean_of_mem_nan (l : List (Fl α)) (h : nan ∈ l) : mean l = nan := by
  unfold mean sum; rw [foldl_add_mem_nan l h]; rfl

/-- If the mean squared deviation from the mean is not NaN, the sample is non-empty and finite. -/
theorem finite_of_var (l : List (Fl α)) (h : (mean (l.map fun x => sq (sub x (mean l)))).isNan = false) :
    ∃ xs : List α, xs ≠ [] ∧ l = xs.map fin := by
  by_cases hl : l = []
  · subst hl; simp [mean_nil, isNan] at h
  have hlen : (0 : α) < l.length := by
    have : 0 < l.length := List.length_pos_iff.mpr hl
    exact_mod_cast this
  -- a NaN in the sample makes everything NaN
  have hbad : ∀ x ∈ l, sub x (mean l) = nan → False := by
    intro x hx hs
    rw [mean_of_mem_nan] at h
    · simp [isNan] at h
    · exact List.mem_map.mpr ⟨x, hx, by rw [hs]; rfl⟩
  have hall : ∀ x ∈ l, IsFin x := by
    rcases hsum : sum l with _ | _ | b | _
    · exfalso
      obtain ⟨x, hx⟩ := List.exists_mem_of_ne_nil l hl
      refine hbad x hx ?_
      unfold mean; rw [hsum]
      cases x <;> rfl
    · exfalso
      rcases foldl_add_ninf l _ hsum with h | h
      · simp at h
      · refine hbad _ h ?_
        unfold mean; rw [hsum]
        simp [div, not_lt.mpr hlen.le, sub, neg, add]
    · exact (foldl_add_fin l _ b hsum).2
    · exfalso
      rcases foldl_add_pinf l _ hsum with h | h
      · simp at h
      · refine hbad _ h ?_
        unfold mean; rw [hsum]
        simp [div, not_lt.mpr hlen.le, sub, neg, add]
  clear h hbad hlen
  have : ∃ xs : List α, l = xs.map fin := by
    clear hl
    induction l with
    | nil => exact ⟨[], rfl⟩
    | cons x l ih =>
      obtain ⟨a, rfl⟩ := hall x (by simp)
      obtain ⟨xs, rfl⟩ := ih (fun y hy => hall y (by simp [hy]))
      exact ⟨a :: xs, rfl⟩
  obtain ⟨xs, rfl⟩ := this
  exact ⟨xs, by simpa using hl, rfl⟩

theorem sum_sq_nonneg (xs : List α) (m : α) : 0 ≤ (xs.map fun x => (x - m) * (x - m)).sum := by
  apply List.sum_nonneg
  intro y hy
  obtain ⟨x, _, rfl⟩ := List.mem_map.mp hy
  exact mul_self_nonneg _

theorem map_sqdev (xs : List α) (m : α) :
    ((xs.map fin).map fun x => sq (sub x (fin m))) = (xs.map fun x => (x - m) * (x - m)).map fin := by
  rw [List.map_map, List.map_map]
  apply List.map_congr_left
  intro x _
  simp [sq, sub, neg, add, mul, sub_eq_add_neg]

end Fl
end Verif
