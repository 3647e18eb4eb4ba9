import Verif.Lemmas.Arms3

/-!
# Histories of updates
-/

set_option linter.unusedSectionVars false

namespace Verif
namespace Arm
open ExpData
variable {E β α W : Type} [Field α] [LinearOrder α]

theorem assignedUnits_snoc (T : ExpData β → ExpData β) (sel : List Nat × List Nat → List Nat)
    (hist : List (ExpData β × Fl α)) (assign : List (List Nat × List Nat)) (h : assign.length = hist.length)
    (p : ExpData β × Fl α) (a : List Nat × List Nat) :
    assignedUnits T sel (hist ++ [p]) (assign ++ [a]) =
      assignedUnits T sel hist assign ++ (sel a).map (T p.1).unitAt := by
  unfold assignedUnits
  rw [List.zip_append h.symm]
  simp

theorem assignedUnits_length (T : ExpData β → ExpData β) (hist : List (ExpData β × Fl α))
    (assign : List (List Nat × List Nat)) (h : IsAssignment T hist assign) :
    (assignedUnits T Prod.fst hist assign).length + (assignedUnits T Prod.snd hist assign).length =
      (hist.map fun p => (T p.1).nUnits).sum := by
  obtain ⟨h1, h2⟩ := h
  induction hist generalizing assign with
  | nil => simp [assignedUnits]
  | cons p hist ih =>
    cases assign with
    | nil => simp at h1
    | cons a assign =>
      have := ih assign (by simpa using h1) (fun t q b hq hb => h2 (t + 1) q b (by simpa using hq) (by simpa using hb))
      have h0 := (h2 0 p a (by simp) (by simp)).length_eq
      simp only [List.length_append, List.length_range] at h0
      simp only [assignedUnits, List.zip_cons_cons, List.map_cons, List.flatten_cons, List.length_append, List.length_map,
        List.sum_cons] at this ⊢
      omega

/-- The folds of an arm that was fed `hist`. -/
def FoldsAre (T : ExpData β → ExpData β) (hist : List (ExpData β × Fl α)) (assign : List (List Nat × List Nat))
    (fs : Option (List (ExpData β))) : Prop :=
  (hist = [] → fs = none) ∧
  (hist ≠ [] → ∃ f0 f1 : ExpData β, fs = some [f0, f1] ∧ f0.WF ∧ f1.WF ∧
    (∀ p ∈ hist, SameKind (T p.1) f0 ∧ SameKind (T p.1) f1) ∧
    f0.units = assignedUnits T Prod.fst hist assign ∧ f1.units = assignedUnits T Prod.snd hist assign)

/-- one more batch -/
theorem foldsAre_step (transform : ExpData β → Except PyErr (ExpData β)) (rng : Rng W α)
    (T : ExpData β → ExpData β) (hist : List (ExpData β × Fl α)) (assign : List (List Nat × List Nat))
    (ha : IsAssignment T hist assign) (p : ExpData β × Fl α) (ht : transform p.1 = .ok (T p.1)) (hwf : (T p.1).WF)
    (hk : ∀ q ∈ hist, SameKind (T q.1) (T p.1)) (s : ArmState E β α) (w : W) (hs : FoldsAre T hist assign s.split) :
    ∃ a fs w', addData transform true rng p.1 (s, w) = (.ok (), { s with split := fs }, w') ∧
      IsAssignment T (hist ++ [p]) (assign ++ [a]) ∧ FoldsAre T (hist ++ [p]) (assign ++ [a]) fs := by
  have hassign : ∀ a : List Nat × List Nat, (a.1 ++ a.2).Perm (List.range (T p.1).nUnits) →
      IsAssignment T (hist ++ [p]) (assign ++ [a]) := by
    intro a hp
    refine ⟨by simp [ha.1], ?_⟩
    intro t h b h1 h2
    by_cases hlt : t < hist.length
    · rw [List.getElem?_append_left hlt] at h1
      rw [List.getElem?_append_left (by rw [ha.1]; exact hlt)] at h2
      exact ha.2 t h b h1 h2
    · by_cases he : t = hist.length
      · subst he
        simp only [List.getElem?_concat_length, Option.some.injEq] at h1
        rw [← ha.1] at h2
        simp only [List.getElem?_concat_length, Option.some.injEq] at h2
        rw [← h1, ← h2]; exact hp
      · rw [List.getElem?_eq_none (by simp; omega)] at h1
        simp at h1
  by_cases hh : hist = []
  · subst hh
    have hnone := hs.1 rfl
    obtain ⟨f0, f1, I, J, w', h1, h2, h3, h4, h5, h6, h7, h8⟩ :=
      addData_set (E := E) transform true rng p.1 (T p.1) ht hwf s w (Or.inl hnone)
    have hA := hassign (I, J) h2
    have hemp : assign = [] := by simpa using ha.1
    subst hemp
    refine ⟨(I, J), some [f0, f1], w', h1, hA, by simp, fun _ => ⟨f0, f1, rfl, h3, h4, ?_, ?_, ?_⟩⟩
    · intro q hq
      have : q = p := by simpa using hq
      subst this; exact ⟨h5, h6⟩
    · simpa [assignedUnits] using h7
    · simpa [assignedUnits] using h8
  · obtain ⟨f0, f1, e1, w0, w1, e2, u0, u1⟩ := hs.2 hh
    obtain ⟨q, hq⟩ := List.exists_mem_of_ne_nil hist hh
    have k0 : SameKind (T p.1) f0 := (hk q hq).symm.trans (e2 q hq).1
    have k1 : SameKind (T p.1) f1 := (hk q hq).symm.trans (e2 q hq).2
    obtain ⟨a', b', I, J, w', h1, h2, h3, h4, h5, h6, h7, h8⟩ :=
      addData_append (E := E) transform rng p.1 (T p.1) ht hwf s w f0 f1 e1 w0 w1 k0 k1
    refine ⟨(I, J), some [a', b'], w', h1, hassign (I, J) h2, by simp, fun _ => ⟨a', b', rfl, h3, h4, ?_, ?_, ?_⟩⟩
    · intro r hr
      rcases List.mem_append.mp hr with hr | hr
      · exact ⟨(hk r hr).trans h5, (hk r hr).trans h6⟩
      · have : r = p := by simpa using hr
        subst this; exact ⟨h5, h6⟩
    · rw [h7, u0, assignedUnits_snoc T _ hist assign ha.1]
    · rw [h8, u1, assignedUnits_snoc T _ hist assign ha.1]

end Arm
end Verif
