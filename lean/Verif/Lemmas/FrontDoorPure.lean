import Verif.Lemmas.FrontDoor2
import Verif.Lemmas.Stream4
import Verif.Model.ParametersReal
import Verif.Spec.Arms

/-!
# Evaluating front-door scores again

`calculate_score` inserts keys into the table of conditional probabilities, so it changes the parameter. The change has no effect on later results.
-/

set_option linter.unusedSectionVars false
set_option linter.unusedSimpArgs false

namespace Verif
open Param Arm

namespace Tab
variable {KX KZ α : Type} [DecidableEq KX] [DecidableEq KZ] [Field α] [LinearOrder α]

theorem Same.symm {t t' : Tab KX KZ α} (h : Same t t') : Same t' t :=
  ⟨fun x z => (h.cell x z).symm, h.zValues.symm, h.xValues.symm, h.ratio.symm⟩

end Tab

namespace FrontDoor
variable {M α : Type} [Field α] [LinearOrder α]

/-- parameters that differ only in the keys inserted in the table -/
structure Alike (s s' : FrontDoor M α) : Prop where
  rest : s' = { s with cpd := s'.cpd }
  table : s.cpd.Same s'.cpd

theorem Alike.refl (s : FrontDoor M α) : Alike s s := ⟨rfl, Tab.Same.refl _⟩

theorem Alike.of (s : FrontDoor M α) {t : Tab (Cell α) (List (Cell α)) α} (h : s.cpd.Same t) : Alike s { s with cpd := t } := ⟨rfl, h⟩

theorem Alike.symm {s s' : FrontDoor M α} (h : Alike s s') : Alike s' s := by
  obtain ⟨h1, h2⟩ := h
  generalize s'.cpd = t at h1 h2
  subst h1
  exact ⟨rfl, h2.symm⟩

theorem Alike.trans {a b c : FrontDoor M α} (h : Alike a b) (h' : Alike b c) : Alike a c := by
  obtain ⟨h1, h2⟩ := h
  obtain ⟨h3, h4⟩ := h'
  generalize b.cpd = t at h1 h2 h4
  subst h1
  refine ⟨by rw [h3], h2.trans h4⟩

/-- the computation has the same result on parameters that are alike, and changes them only in the inserted keys -/
def Stable {A : Type} (m : Py (FrontDoor M α) A) : Prop := ∀ s s', Alike s s' → (m s').1 = (m s).1 ∧ Alike s (m s).2

theorem Stable.pure {A : Type} (a : A) : Stable (M := M) (α := α) (Pure.pure a) := fun s _ _ => ⟨rfl, Alike.refl s⟩
theorem Stable.lift {A : Type} (x : Except PyErr A) : Stable (M := M) (α := α) (Py.lift x) := fun s _ _ => ⟨rfl, Alike.refl s⟩
theorem Stable.raise {A : Type} (e : PyErr) : Stable (M := M) (α := α) (Py.raise (A := A) e) := fun s _ _ => ⟨rfl, Alike.refl s⟩

theorem Stable.bind {A B : Type} {m : Py (FrontDoor M α) A} {f : A → Py (FrontDoor M α) B} (hm : Stable m) (hf : ∀ a, Stable (f a)) : Stable (m >>= f) := by
  intro s s' h
  obtain ⟨h1, h2⟩ := hm s s' h
  obtain ⟨-, h3⟩ := hm s' s h.symm
  rw [Py.bind_apply, Py.bind_apply]
  rcases hs : m s with ⟨r, s1⟩
  rcases hs' : m s' with ⟨r', s1'⟩
  rw [hs] at h1 h2
  rw [hs'] at h1 h3
  dsimp only at h1 h2 h3
  subst h1
  have h4 : Alike s1 s1' := h2.symm.trans (h.trans h3)
  cases r' with
  | error e => exact ⟨rfl, h2⟩
  | ok a => exact ⟨(hf a s1 s1' h4).1, h2.trans (hf a s1 s1' h4).2⟩

theorem Stable.look (xs : List (Cell α)) (zs : List (List (Cell α))) : Stable (M := M) (look xs zs) := by
  intro s s' h
  obtain ⟨t, h1, h2⟩ := look_eq xs zs s
  obtain ⟨t', h1', h2'⟩ := look_eq xs zs s'
  rw [h2, h2']
  refine ⟨?_, Alike.of s h1⟩
  simp only [h.table.cell]

theorem Stable.supportLoop (R : Predictor M α) (m : M) (q : α) (xs p1 p0 : List α) (S : List (List (Cell α))) (acc : List α × List α) :
    Stable (supportLoop R m q xs p1 p0 S acc) := by
  induction S generalizing acc with
  | nil => exact Stable.pure _
  | cons z S ih =>
    obtain ⟨f1, f3⟩ := acc
    cases z with
    | nil => exact Stable.raise _
    | cons z0 zt =>
      unfold FrontDoor.supportLoop
      exact Stable.bind (Stable.look _ _) fun a => Stable.bind (Stable.look _ _) fun b => ih _

theorem Stable.transform (R : Predictor M α) (d : ExpData (Cell α)) : Stable (transform R d) := by
  -- after `s` has been read
  have key : ∀ s s0 : FrontDoor M α, Alike s s0 → ∃ m, Stable m ∧ FrontDoor.transform R d s = m s ∧ FrontDoor.transform R d s0 = m s0 := by
    intro s s0 h
    obtain ⟨h1, h2⟩ := h
    generalize s0.cpd = t at h1 h2
    subst h1
    unfold FrontDoor.transform
    simp only [Py.bind_apply, Py.get_apply]
    by_cases hd : d.nFeatures ≠ s.covDim
    · simp only [if_pos hd]
      exact ⟨_, Stable.raise _, rfl, rfl⟩
    · by_cases hf : (!s.hasBeenFit) = true
      · simp only [if_neg hd, if_pos hf]
        exact ⟨_, Stable.pure _, rfl, rfl⟩
      · simp only [if_neg hd, if_neg hf, h2.zValues]
        refine ⟨_, ?_, rfl, rfl⟩
        refine Stable.bind (Stable.lift _) fun _ => Stable.bind (Stable.lift _) fun _ => Stable.bind (Stable.lift _) fun _ => Stable.bind (Stable.lift _) fun _ =>
          Stable.bind (Stable.look _ _) fun _ => Stable.bind (Stable.look _ _) fun _ => Stable.bind (Stable.look _ _) fun _ =>
          Stable.bind (Stable.lift _) fun _ => Stable.bind (Stable.lift _) fun _ => Stable.bind (Stable.lift _) fun _ => Stable.bind (Stable.lift _) fun _ =>
          Stable.bind (Stable.supportLoop _ _ _ _ _ _ _ _) fun _ => Stable.pure _
  intro s s' h
  obtain ⟨m, h1, h2, h3⟩ := key s s' h
  rw [h2, h3]
  exact h1 s s' h

theorem Stable.score (R : Predictor M α) (d : ExpData (Cell α)) : Stable (score R d) :=
  Stable.bind (Stable.transform R d) fun _ => Stable.lift _

end FrontDoor

namespace FrontDoor
variable {M : Type}

theorem repeatable (R : Predictor M ℝ) (ridge0 : M) : ScoreRepeatable (ops R ridge0) := by
  intro e d
  obtain ⟨h1, h2⟩ := Stable.score R d e e (Alike.refl e)
  exact ((Stable.score R d e _ h2).1)

theorem score_alike (R : Predictor M ℝ) (ridge0 : M) (e : FrontDoor M ℝ) (d : ExpData (Cell ℝ)) : Alike e ((ops R ridge0).score e d).2 :=
  (Stable.score R d e e (Alike.refl e)).2

end FrontDoor
end Verif
