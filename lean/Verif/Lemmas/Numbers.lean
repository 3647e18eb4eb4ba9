import Verif.Spec.Numbers
import Verif.Lemmas.ExampleScm
import Verif.Props.ExampleScm
import Mathlib.Probability.Independence.InfinitePi
import Mathlib.MeasureTheory.Integral.Prod

/-!
# The units of the example SCMs in a world of random numbers
-/

set_option linter.unusedSectionVars false
set_option linter.unusedSimpArgs false

namespace Verif
open MeasureTheory ProbabilityTheory

/-- tuples of disjoint sets of independent variables are independent -/
theorem iIndepFun_curry {Ω ι κ T : Type} [MeasurableSpace Ω] [MeasurableSpace T] {P : Measure Ω} {X : ι × κ → Ω → T} (mX : ∀ i, Measurable (X i)) (h : iIndepFun X P) :
    iIndepFun (fun i ω j => X (i, j) ω) P := by
  have := h.isProbabilityMeasure
  have : ∀ i, IsProbabilityMeasure (P.map (X i)) := fun i => Measure.isProbabilityMeasure_map (mX i).aemeasurable
  rw [iIndepFun_iff_map_fun_eq_infinitePi_map (fun i => measurable_pi_lambda _ fun j => mX (i, j))]
  have e1 : P.map (fun ω i j => X (i, j) ω) = (P.map fun ω q => X q ω).map (MeasurableEquiv.curry ι κ T) := by
    rw [Measure.map_map (MeasurableEquiv.measurable _) (measurable_pi_lambda _ mX)]
    rfl
  rw [e1, (iIndepFun_iff_map_fun_eq_infinitePi_map mX).1 h]
  have := Measure.infinitePi_map_curry (fun i j => P.map (X (i, j)))
  rw [this]
  congr 1
  funext i
  have hi : Function.Injective fun j : κ => (i, j) := fun a b hab => (Prod.mk.inj hab).2
  exact ((iIndepFun_iff_map_fun_eq_infinitePi_map fun j => mX (i, j)).1 (h.precomp hi)).symm

/-- the position of the first uniform number of unit `k` of blocks of `m` units -/
def firstPos (m k : ℕ) : ℕ := 2 * (k / m) * m + k % m
/-- the position of the second uniform number of unit `k` -/
def secondPos (m k : ℕ) : ℕ := (2 * (k / m) + 1) * m + k % m

def posOf (m : ℕ) (q : ℕ × Fin 3) : ℕ ⊕ ℕ := if q.2 = 0 then .inl (firstPos m q.1) else if q.2 = 1 then .inl (secondPos m q.1) else .inr q.1

theorem div_pos' {m a b : ℕ} (hm : 0 < m) (hb : b < m) : (a * m + b) / m = a ∧ (a * m + b) % m = b := by
  constructor
  · rw [Nat.add_comm, Nat.add_mul_div_right _ _ hm, Nat.div_eq_of_lt hb, Nat.zero_add]
  · rw [Nat.add_comm, Nat.add_mul_mod_self_right, Nat.mod_eq_of_lt hb]

theorem same_unit {m a b k l : ℕ} (hm : 0 < m) (h : a * m + k % m = b * m + l % m) : a = b ∧ k % m = l % m := by
  have h1 := div_pos' (a := a) hm (Nat.mod_lt k hm)
  have h2 := div_pos' (a := b) hm (Nat.mod_lt l hm)
  rw [h] at h1
  exact ⟨h1.1.symm.trans h2.1, h1.2.symm.trans h2.2⟩

theorem unit_ext {m k l : ℕ} (h1 : k / m = l / m) (h2 : k % m = l % m) : k = l := by
  rw [← Nat.div_add_mod k m, ← Nat.div_add_mod l m, h1, h2]

theorem posOf_injective {m : ℕ} (hm : 0 < m) : Function.Injective (posOf m) := by
  rintro ⟨k, a⟩ ⟨l, b⟩ h
  fin_cases a <;> fin_cases b <;> simp [posOf, firstPos, secondPos] at h ⊢
  · obtain ⟨h1, h2⟩ := same_unit hm h
    exact unit_ext (by omega) h2
  · obtain ⟨h1, h2⟩ := same_unit hm h
    omega
  · obtain ⟨h1, h2⟩ := same_unit hm h
    omega
  · obtain ⟨h1, h2⟩ := same_unit hm h
    exact unit_ext (by omega) h2
  · exact h

section
variable {Ω : Type} [MeasurableSpace Ω] {P : Measure Ω} {U G : ℕ → Ω → ℝ}

/-- the random numbers of unit `k` -/
def numbersOf (U G : ℕ → Ω → ℝ) (m k : ℕ) (ω : Ω) : ℝ × ℝ × ℝ := (U (firstPos m k) ω, U (secondPos m k) ω, G k ω)

/-- their law -/
noncomputable def unitLaw : Measure (ℝ × ℝ × ℝ) := (volume.restrict (Set.Ico (0 : ℝ) 1)).prod ((volume.restrict (Set.Ico (0 : ℝ) 1)).prod (gaussianReal 0 1))

instance : IsProbabilityMeasure (volume.restrict (Set.Ico (0 : ℝ) 1)) := ⟨by simp⟩

instance : IsProbabilityMeasure unitLaw := by unfold unitLaw; infer_instance

theorem RandomNumbers.measurable (h : RandomNumbers P U G) (i : ℕ ⊕ ℕ) : Measurable (Sum.elim U G i) := by
  cases i
  · exact h.measurable_unif _
  · exact h.measurable_normal _

theorem numbersOf_measurable (h : RandomNumbers P U G) (m k : ℕ) : Measurable (numbersOf U G m k) :=
  (h.measurable_unif _).prodMk ((h.measurable_unif _).prodMk (h.measurable_normal _))

theorem numbersOf_law (h : RandomNumbers P U G) {m : ℕ} (hm : 0 < m) (k : ℕ) : P.map (numbersOf U G m k) = unitLaw := by
  have := h.indep.isProbabilityMeasure
  have h12 : firstPos m k ≠ secondPos m k := by
    intro e
    have := (same_unit hm e).1
    omega
  have i1 : IndepFun (U (secondPos m k)) (G k) P := h.indep.indepFun (i := .inl (secondPos m k)) (j := .inr k) (by simp)
  have i2 : IndepFun (fun ω => (U (secondPos m k) ω, G k ω)) (U (firstPos m k)) P :=
    h.indep.indepFun_prodMk h.measurable (.inl (secondPos m k)) (.inr k) (.inl (firstPos m k)) (by simp [h12.symm]) (by simp)
  have e1 := (indepFun_iff_map_prod_eq_prod_map_map (h.measurable_unif _).aemeasurable (h.measurable_normal _).aemeasurable).1 i1
  have e2 := (indepFun_iff_map_prod_eq_prod_map_map (h.measurable_unif (firstPos m k)).aemeasurable ((h.measurable_unif (secondPos m k)).prodMk (h.measurable_normal k)).aemeasurable).1 i2.symm
  show P.map (fun ω => (U (firstPos m k) ω, U (secondPos m k) ω, G k ω)) = _
  rw [e2, e1, h.unif, h.unif, h.normal]
  rfl

theorem numbersOf_iid (h : RandomNumbers P U G) {m : ℕ} (hm : 0 < m) : Iid P (numbersOf U G m) where
  indep := by
    have h1 := h.indep.precomp (posOf_injective hm)
    have h2 := iIndepFun_curry (X := fun q : ℕ × Fin 3 => Sum.elim U G (posOf m q)) (fun q => h.measurable _) h1
    exact h2.comp (fun _ t => (t 0, t 1, t 2)) fun _ => by fun_prop
  ident k := ⟨(numbersOf_measurable h m k).aemeasurable, (numbersOf_measurable h m 0).aemeasurable, by rw [numbersOf_law h hm, numbersOf_law h hm]⟩

end
end Verif
