import Verif.Lemmas.Plotting
import Mathlib.Data.List.Count
import Mathlib.Data.List.Basic
import Mathlib.Algebra.Order.BigOperators.Group.List

/-!
# Lemmas on the summaries computed in the notebook
-/

set_option linter.unusedSectionVars false
set_option linter.unusedSimpArgs false

namespace Verif
namespace Plotting
variable {I S W β α : Type}

section Sorting
variable [LinearOrder α]

theorem sortLe_total (a b : Fl α) : (sortLe a b || sortLe b a) = true := by
  cases a <;> cases b <;> simp [sortLe, Fl.le, Fl.lt, Fl.eq]
  rename_i x y
  rcases lt_trichotomy x y with h | h | h
  · simp [h]
  · simp [h]
  · simp [h]

theorem sortLe_trans (a b c : Fl α) (h1 : sortLe a b = true) (h2 : sortLe b c = true) : sortLe a c = true := by
  cases a <;> cases b <;> cases c <;> simp_all [sortLe, Fl.le, Fl.lt, Fl.eq]
  rename_i x y z
  rcases h1 with h1 | h1 <;> rcases h2 with h2 | h2
  · exact Or.inl (h1.trans h2)
  · exact Or.inl (h2 ▸ h1)
  · exact Or.inl (h1 ▸ h2)
  · exact Or.inr (h1.trans h2)

theorem sorted_perm (vs : List (Fl α)) : (sorted vs).Perm vs := List.perm_insertionSort _ _

theorem sorted_pairwise (vs : List (Fl α)) : (sorted vs).Pairwise fun x y => sortLe x y = true := by
  have : Std.Total fun x y : Fl α => sortLe x y = true := ⟨fun a b => by simpa using sortLe_total a b⟩
  have : IsTrans (Fl α) fun x y => sortLe x y = true := ⟨sortLe_trans⟩
  exact List.pairwise_insertionSort _ _

theorem not_lt_of_sortLe {a b : Fl α} (h : sortLe a b = true) : b.lt a = false := by
  cases a <;> cases b <;> simp_all [sortLe, Fl.le, Fl.lt, Fl.eq]
  rcases h with h | h
  · exact h.le
  · exact h.le

theorem lt_of_sortLe {a b : Fl α} (h : sortLe a b = true) (hb : b ≠ .nan) (hne : a ≠ b) : a.lt b = true := by
  cases a <;> cases b <;> simp_all [sortLe, Fl.le, Fl.lt, Fl.eq]

theorem lt_of_lt_of_not_lt {a b c : Fl α} (h1 : a.lt c = true) (h2 : b.lt c = false) (hb : b ≠ .nan) : a.lt b = true := by
  cases a <;> cases b <;> cases c <;> simp_all [Fl.lt]
  exact lt_of_lt_of_le h1 h2

theorem not_lt_of_lt_of_not_lt {a b c : Fl α} (h1 : a.lt c = true) (h2 : b.lt c = false) : b.lt a = false := by
  cases a <;> cases b <;> cases c <;> simp_all [Fl.lt]
  exact (h1.le).trans h2

/-- At most `m` entries are below the `m`-th entry of the sorted list. -/
theorem countP_le (vs : List (Fl α)) (m : Nat) (c : Fl α) (hc : (sorted vs)[m]? = some c) :
    vs.countP (fun v => v.lt c) ≤ m := by
  rw [← (sorted_perm vs).countP_eq]
  have hp := sorted_pairwise vs
  generalize hs : sorted vs = s at *
  obtain ⟨hm, hce⟩ := List.getElem?_eq_some_iff.mp hc
  rw [← List.take_append_drop m s, List.countP_append]
  have h0 : (s.drop m).countP (fun v => v.lt c) = 0 := by
    rw [List.countP_eq_zero]
    intro v hv
    obtain ⟨i, hi⟩ := List.mem_iff_getElem?.mp hv
    rw [List.getElem?_drop] at hi
    obtain ⟨hi1, hi2⟩ := List.getElem?_eq_some_iff.mp hi
    rcases Nat.eq_zero_or_pos i with rfl | h
    · simp only [Nat.add_zero] at hi2
      rw [hce] at hi2
      subst hi2
      cases c <;> simp [Fl.lt]
    · have := List.pairwise_iff_getElem.mp hp m (m + i) hm hi1 (by omega)
      rw [hce, hi2] at this
      simp [not_lt_of_sortLe this]
  rw [h0, Nat.add_zero]
  exact le_trans List.countP_le_length (by simp)

/-- Exactly `m` of them if the entries are distinct numbers. -/
theorem countP_eq (vs : List (Fl α)) (hnan : .nan ∉ vs) (hd : vs.Nodup) (m : Nat) (c : Fl α)
    (hc : (sorted vs)[m]? = some c) : vs.countP (fun v => v.lt c) = m := by
  refine le_antisymm (countP_le vs m c hc) ?_
  have hperm := sorted_perm vs
  rw [← hperm.countP_eq]
  have hp := sorted_pairwise vs
  have hd' : (sorted vs).Nodup := hperm.nodup_iff.mpr hd
  have hcn : c ≠ .nan := by
    rintro rfl
    exact hnan (hperm.mem_iff.mp (List.mem_of_getElem? hc))
  generalize hs : sorted vs = s at *
  obtain ⟨hm, hce⟩ := List.getElem?_eq_some_iff.mp hc
  rw [← List.take_append_drop m s, List.countP_append]
  have h0 : (s.take m).countP (fun v => v.lt c) = (s.take m).length := by
    rw [List.countP_eq_length]
    intro v hv
    obtain ⟨i, hi⟩ := List.mem_iff_getElem?.mp hv
    obtain ⟨hi1, hi2⟩ := List.getElem?_eq_some_iff.mp hi
    have him : i < m := by simp at hi1; omega
    rw [List.getElem_take] at hi2
    have h := List.pairwise_iff_getElem.mp hp i m (by omega) hm him
    rw [hce, hi2] at h
    refine lt_of_sortLe h hcn ?_
    rintro rfl
    have := (List.Nodup.getElem_inj_iff hd' (hi := by omega) (hj := hm)).mp (hi2.trans hce.symm)
    omega
  rw [h0]
  simp only [List.length_take]
  omega

end Sorting

theorem lastVars_eq (bd : BanditData I α) (arms : List I) (h : ∀ a ∈ arms, bd.var a ≠ []) :
    ∃ vs, lastVars bd arms = .ok vs ∧ vs.map some = arms.map bd.finalVar := by
  induction arms with
  | nil => exact ⟨[], rfl, rfl⟩
  | cons a as ih =>
    obtain ⟨vs, e1, e2⟩ := ih fun b hb => h b (List.mem_cons_of_mem _ hb)
    have hv := List.getLast?_eq_some_getLast (h a List.mem_cons_self)
    generalize (bd.var a).getLast _ = v at hv
    refine ⟨v :: vs, ?_, ?_⟩
    · simp [lastVars, lastOf, hv, e1, bind, Except.bind, pure, Except.pure]
    · simp [e2, BanditData.finalVar, hv]

theorem maxOf_const (l : List Nat) (M : Nat) (hle : ∀ x ∈ l, x ≤ M) (hM : M ∈ l) : maxOf l = .ok M := by
  cases l with
  | nil => simp at hM
  | cons c l =>
    simp only [maxOf, Except.ok.injEq]
    have key : ∀ (l : List Nat) (c : Nat), c ≤ M → (∀ x ∈ l, x ≤ M) → (c = M ∨ M ∈ l) → l.foldl max c = M := by
      intro l
      induction l with
      | nil => intro c _ _ h; simpa using h
      | cons d l ih =>
        intro c h1 h2 h3
        rw [List.foldl_cons]
        have hd := h2 d List.mem_cons_self
        refine ih _ (by omega) (fun x hx => h2 x (List.mem_cons_of_mem _ hx)) ?_
        rcases h3 with h3 | h3
        · left; omega
        · rcases List.mem_cons.mp h3 with h | h
          · left; omega
          · exact Or.inr h
    refine key l c (hle c List.mem_cons_self) (fun x hx => hle x (List.mem_cons_of_mem _ hx)) ?_
    rcases List.mem_cons.mp hM with h | h
    · exact Or.inl h.symm
    · exact Or.inr h

end Plotting
end Verif
