import Verif.Lemmas.BackDoorUnit

/-!
# The units of the front-door example in a world of random numbers
-/

set_option linter.unusedSectionVars false
set_option linter.unusedSimpArgs false

namespace Verif
open MeasureTheory ProbabilityTheory Filter

/-- the position of uniform number `c` of unit `k`, for blocks of `m` units with three uniform numbers each -/
def triplePos (m c k : ℕ) : ℕ := (3 * (k / m) + c) * m + k % m

def tripleOf (m : ℕ) (q : ℕ × Fin 4) : ℕ ⊕ ℕ := if q.2.1 < 3 then .inl (triplePos m q.2.1 q.1) else .inr q.1

theorem triplePos_inj {m c d k l : ℕ} (hm : 0 < m) (hc : c < 3) (hd : d < 3) (h : triplePos m c k = triplePos m d l) : c = d ∧ k = l := by
  obtain ⟨h1, h2⟩ := same_unit hm h
  exact ⟨by omega, unit_ext (by omega) h2⟩

theorem tripleOf_injective {m : ℕ} (hm : 0 < m) : Function.Injective (tripleOf m) := by
  rintro ⟨k, a⟩ ⟨l, b⟩ h
  unfold tripleOf at h
  simp only at h
  by_cases ha : a.1 < 3 <;> by_cases hb : b.1 < 3
  · rw [if_pos ha, if_pos hb] at h
    obtain ⟨h1, h2⟩ := triplePos_inj hm ha hb (Sum.inl.inj h)
    rw [h2, Fin.ext h1]
  · rw [if_pos ha, if_neg hb] at h
    cases h
  · rw [if_neg ha, if_pos hb] at h
    cases h
  · rw [if_neg ha, if_neg hb] at h
    have h2 := Sum.inr.inj h
    have : a = b := Fin.ext (by omega)
    rw [h2, this]

section
variable {Ω : Type} [MeasurableSpace Ω] {P : Measure Ω} {U G : ℕ → Ω → ℝ}

/-- the random numbers of unit `k` of the front-door example -/
def fourNumbers (U G : ℕ → Ω → ℝ) (m k : ℕ) (ω : Ω) : (ℝ × ℝ) × ℝ × ℝ :=
  ((U (triplePos m 0 k) ω, U (triplePos m 1 k) ω), U (triplePos m 2 k) ω, G k ω)

/-- their law -/
noncomputable def fourLaw : Measure ((ℝ × ℝ) × ℝ × ℝ) :=
  ((volume.restrict (Set.Ico (0 : ℝ) 1)).prod (volume.restrict (Set.Ico (0 : ℝ) 1))).prod ((volume.restrict (Set.Ico (0 : ℝ) 1)).prod (gaussianReal 0 1))

instance : IsProbabilityMeasure fourLaw := by unfold fourLaw; infer_instance

theorem fourNumbers_measurable (h : RandomNumbers P U G) (m k : ℕ) : Measurable (fourNumbers U G m k) :=
  ((h.measurable_unif _).prodMk (h.measurable_unif _)).prodMk ((h.measurable_unif _).prodMk (h.measurable_normal _))

theorem fourNumbers_law (h : RandomNumbers P U G) {m : ℕ} (hm : 0 < m) (k : ℕ) : P.map (fourNumbers U G m k) = fourLaw := by
  have := h.indep.isProbabilityMeasure
  have hne : ∀ {c d}, c < 3 → d < 3 → c ≠ d → triplePos m c k ≠ triplePos m d k := fun hc hd hcd e => hcd (triplePos_inj hm hc hd e).1
  have i1 : IndepFun (U (triplePos m 0 k)) (U (triplePos m 1 k)) P := h.indep.indepFun (i := .inl (triplePos m 0 k)) (j := .inl (triplePos m 1 k))
    (fun e => hne (by omega) (by omega) (by omega) (Sum.inl.inj e))
  have i2 : IndepFun (U (triplePos m 2 k)) (G k) P := h.indep.indepFun (i := .inl (triplePos m 2 k)) (j := .inr k) (by simp)
  have i3 : IndepFun (fun ω => (U (triplePos m 0 k) ω, U (triplePos m 1 k) ω)) (fun ω => (U (triplePos m 2 k) ω, G k ω)) P :=
    h.indep.indepFun_prodMk_prodMk h.measurable (.inl (triplePos m 0 k)) (.inl (triplePos m 1 k)) (.inl (triplePos m 2 k)) (.inr k)
      (fun e => hne (by omega) (by omega) (by omega) (Sum.inl.inj e)) (by simp) (fun e => hne (by omega) (by omega) (by omega) (Sum.inl.inj e)) (by simp)
  have e1 := (indepFun_iff_map_prod_eq_prod_map_map (h.measurable_unif _).aemeasurable (h.measurable_unif _).aemeasurable).1 i1
  have e2 := (indepFun_iff_map_prod_eq_prod_map_map (h.measurable_unif _).aemeasurable (h.measurable_normal _).aemeasurable).1 i2
  have e3 := (indepFun_iff_map_prod_eq_prod_map_map ((h.measurable_unif (triplePos m 0 k)).prodMk (h.measurable_unif (triplePos m 1 k))).aemeasurable
    ((h.measurable_unif (triplePos m 2 k)).prodMk (h.measurable_normal k)).aemeasurable).1 i3
  show P.map (fun ω => ((U (triplePos m 0 k) ω, U (triplePos m 1 k) ω), U (triplePos m 2 k) ω, G k ω)) = _
  rw [e3, e1, e2, h.unif, h.unif, h.unif, h.normal]
  rfl

theorem fourNumbers_iid (h : RandomNumbers P U G) {m : ℕ} (hm : 0 < m) : Iid P (fourNumbers U G m) where
  indep := by
    have h1 := h.indep.precomp (tripleOf_injective hm)
    have h2 := iIndepFun_curry (X := fun q : ℕ × Fin 4 => Sum.elim U G (tripleOf m q)) (fun q => h.measurable _) h1
    exact h2.comp (fun _ t => ((t 0, t 1), t 2, t 3)) fun _ => by fun_prop
  ident k := ⟨(fourNumbers_measurable h m k).aemeasurable, (fourNumbers_measurable h m 0).aemeasurable, by rw [fourNumbers_law h hm, fourNumbers_law h hm]⟩

end

namespace Example
open Section5

/-- confounder, exposure and mediator of a unit -/
noncomputable def uxz (p beta alpha1 : ℝ) (q : (ℝ × ℝ) × ℝ × ℝ) : ℝ × ℝ × ℝ :=
  (fU p q.1.1, fX p alpha1 q.1.1 q.1.2, fZ beta (fX p alpha1 q.1.1 q.1.2) q.2.1)

theorem uxz_cases (p beta alpha1 : ℝ) (q : (ℝ × ℝ) × ℝ × ℝ) : ((uxz p beta alpha1 q).1 = 0 ∨ (uxz p beta alpha1 q).1 = 1) ∧
    ((uxz p beta alpha1 q).2.1 = 0 ∨ (uxz p beta alpha1 q).2.1 = 1) ∧ ((uxz p beta alpha1 q).2.2 = 0 ∨ (uxz p beta alpha1 q).2.2 = 1) :=
  ⟨bit_cases _ _, bit_cases _ _, bit_cases _ _⟩

theorem measurable_logistic : Measurable logistic := by
  unfold logistic
  fun_prop

theorem measurable_uxz (p beta alpha1 : ℝ) : Measurable (uxz p beta alpha1) := by
  have h1 : Measurable fun q : (ℝ × ℝ) × ℝ × ℝ => fU p q.1.1 := measurable_bit measurable_const (by fun_prop)
  have h2 : Measurable fun q : (ℝ × ℝ) × ℝ × ℝ => fX p alpha1 q.1.1 q.1.2 := measurable_bit (measurable_logistic.comp (h1.const_mul alpha1)) (by fun_prop)
  have h3 : Measurable fun q : (ℝ × ℝ) × ℝ × ℝ => fZ beta (fX p alpha1 q.1.1 q.1.2) q.2.1 := measurable_bit (measurable_logistic.comp (h2.const_mul beta)) (by fun_prop)
  exact h1.prodMk (h2.prodMk h3)

theorem table3 (A : ℝ → ℝ → ℝ → ℝ) {u x z : ℝ} (hu : u = 0 ∨ u = 1) (hx : x = 0 ∨ x = 1) (hz : z = 0 ∨ z = 1) :
    A u x z = u * (x * (z * A 1 1 1 + (1 - z) * A 1 1 0) + (1 - x) * (z * A 1 0 1 + (1 - z) * A 1 0 0)) +
      (1 - u) * (x * (z * A 0 1 1 + (1 - z) * A 0 1 0) + (1 - x) * (z * A 0 0 1 + (1 - z) * A 0 0 0)) := by
  rcases hu with rfl | rfl <;> rcases hx with rfl | rfl <;> rcases hz with rfl | rfl <;> ring

variable {p beta alpha1 : ℝ}

theorem measurable_table3 (A : ℝ → ℝ → ℝ → ℝ) : Measurable fun q => A (uxz p beta alpha1 q).1 (uxz p beta alpha1 q).2.1 (uxz p beta alpha1 q).2.2 := by
  have h := measurable_uxz p beta alpha1
  have h1 : Measurable fun q => (uxz p beta alpha1 q).1 := measurable_fst.comp h
  have h2 : Measurable fun q => (uxz p beta alpha1 q).2.1 := (measurable_fst.comp measurable_snd).comp h
  have h3 : Measurable fun q => (uxz p beta alpha1 q).2.2 := (measurable_snd.comp measurable_snd).comp h
  simp only [fun q => table3 A (uxz_cases p beta alpha1 q).1 (uxz_cases p beta alpha1 q).2.1 (uxz_cases p beta alpha1 q).2.2]
  fun_prop

theorem table3_bound (A : ℝ → ℝ → ℝ → ℝ) (q : (ℝ × ℝ) × ℝ × ℝ) : |A (uxz p beta alpha1 q).1 (uxz p beta alpha1 q).2.1 (uxz p beta alpha1 q).2.2| ≤
    |A 1 1 1| + |A 1 1 0| + |A 1 0 1| + |A 1 0 0| + |A 0 1 1| + |A 0 1 0| + |A 0 0 1| + |A 0 0 0| := by
  have a1 := abs_nonneg (A 1 1 1)
  have a2 := abs_nonneg (A 1 1 0)
  have a3 := abs_nonneg (A 1 0 1)
  have a4 := abs_nonneg (A 1 0 0)
  have a5 := abs_nonneg (A 0 1 1)
  have a6 := abs_nonneg (A 0 1 0)
  have a7 := abs_nonneg (A 0 0 1)
  have a8 := abs_nonneg (A 0 0 0)
  obtain ⟨h1 | h1, h2 | h2, h3 | h3⟩ := uxz_cases p beta alpha1 q <;> rw [h1, h2, h3] <;> linarith

variable {Ω : Type} [MeasurableSpace Ω] {P : Measure Ω} [IsProbabilityMeasure P] {T : Ω → (ℝ × ℝ) × ℝ × ℝ}

section
variable (hT : Measurable T) (hl : P.map T = fourLaw)
include hT hl

theorem normal3_memLp (r : ENNReal) (hr : r ≠ ⊤) : MemLp (fun ω => (T ω).2.2) r P := by
  have h1 : MemLp (fun q : (ℝ × ℝ) × ℝ × ℝ => q.2.2) r fourLaw := by
    unfold fourLaw
    exact ((memLp_id_gaussianReal' r hr).comp_snd _).comp_snd _
  rw [← hl] at h1
  exact h1.comp_of_map hT.aemeasurable

theorem table3_memLp (A : ℝ → ℝ → ℝ → ℝ) (r : ENNReal) :
    MemLp (fun ω => A (uxz p beta alpha1 (T ω)).1 (uxz p beta alpha1 (T ω)).2.1 (uxz p beta alpha1 (T ω)).2.2) r P :=
  MemLp.of_bound ((measurable_table3 A).comp hT).aestronglyMeasurable _ (Eventually.of_forall fun ω => table3_bound A (T ω))

theorem table3_mul_memLp (A : ℝ → ℝ → ℝ → ℝ) {f : Ω → ℝ} {r : ENNReal} (hf : MemLp f r P) :
    MemLp (fun ω => A (uxz p beta alpha1 (T ω)).1 (uxz p beta alpha1 (T ω)).2.1 (uxz p beta alpha1 (T ω)).2.2 * f ω) r P := by
  refine hf.of_le_mul (c := |A 1 1 1| + |A 1 1 0| + |A 1 0 1| + |A 1 0 0| + |A 0 1 1| + |A 0 1 0| + |A 0 0 1| + |A 0 0 0|)
    (((measurable_table3 A).comp hT).aestronglyMeasurable.mul hf.1) (Eventually.of_forall fun ω => ?_)
  rw [norm_mul]
  exact mul_le_mul_of_nonneg_right (table3_bound A (T ω)) (norm_nonneg _)

theorem affine3_integral (hp : 0 ≤ p ∧ p ≤ 1) (A B : ℝ → ℝ → ℝ → ℝ) :
    ∫ ω, (A (uxz p beta alpha1 (T ω)).1 (uxz p beta alpha1 (T ω)).2.1 (uxz p beta alpha1 (T ω)).2.2 +
        B (uxz p beta alpha1 (T ω)).1 (uxz p beta alpha1 (T ω)).2.1 (uxz p beta alpha1 (T ω)).2.2 * (T ω).2.2) ∂P =
      p * (logistic alpha1 * (logistic beta * A 1 1 1 + (1 - logistic beta) * A 1 1 0) + (1 - logistic alpha1) * (1 / 2 * A 1 0 1 + 1 / 2 * A 1 0 0)) +
      (1 - p) * (1 / 2 * (logistic beta * A 0 1 1 + (1 - logistic beta) * A 0 1 0) + 1 / 2 * (1 / 2 * A 0 0 1 + 1 / 2 * A 0 0 0)) := by
  let F : (ℝ × ℝ) × ℝ × ℝ → ℝ := fun q => A (uxz p beta alpha1 q).1 (uxz p beta alpha1 q).2.1 (uxz p beta alpha1 q).2.2 +
    B (uxz p beta alpha1 q).1 (uxz p beta alpha1 q).2.1 (uxz p beta alpha1 q).2.2 * q.2.2
  have hF : Measurable F := by
    have h1 := measurable_table3 (p := p) (beta := beta) (alpha1 := alpha1) A
    have h2 := measurable_table3 (p := p) (beta := beta) (alpha1 := alpha1) B
    exact h1.add (h2.mul (measurable_snd.comp measurable_snd))
  have hi : Integrable (fun ω => F (T ω)) P :=
    ((table3_memLp hT hl A 1).integrable le_rfl).add ((table3_mul_memLp hT hl B (normal3_memLp hT hl 1 (by simp))).integrable le_rfl)
  have hi' : Integrable F fourLaw := by
    rw [← hl]
    exact (integrable_map_measure hF.aestronglyMeasurable hT.aemeasurable).2 hi
  show ∫ ω, F (T ω) ∂P = _
  rw [← integral_map hT.aemeasurable hF.aestronglyMeasurable, hl]
  unfold fourLaw at hi' ⊢
  rw [integral_prod _ hi']
  have hi2 := hi'.prod_right_ae
  have hi3 := hi'.integral_prod_left
  rw [integral_prod _ hi3, ← front_int hp A, intervalIntegral.integral_of_le zero_le_one, ← Measure.restrict_congr_set (Ico_ae_eq_Ioc (a := (0 : ℝ)) (b := 1))]
  have hi4 := Measure.ae_ae_of_ae_prod hi2
  refine integral_congr_ae ?_
  filter_upwards [hi4] with u hu
  rw [intervalIntegral.integral_of_le zero_le_one, ← Measure.restrict_congr_set (Ico_ae_eq_Ioc (a := (0 : ℝ)) (b := 1))]
  refine integral_congr_ae ?_
  filter_upwards [hu] with v hv
  rw [integral_prod _ hv, intervalIntegral.integral_of_le zero_le_one, ← Measure.restrict_congr_set (Ico_ae_eq_Ioc (a := (0 : ℝ)) (b := 1))]
  refine integral_congr_ae (Eventually.of_forall fun t => ?_)
  have := gauss_quad (A (fU p u) (fX p alpha1 u v) (fZ beta (fX p alpha1 u v) t)) (B (fU p u) (fX p alpha1 u v) (fZ beta (fX p alpha1 u v) t)) 0
  simp only [zero_mul, add_zero] at this
  exact this

theorem table3_integral (hp : 0 ≤ p ∧ p ≤ 1) (A : ℝ → ℝ → ℝ → ℝ) :
    ∫ ω, A (uxz p beta alpha1 (T ω)).1 (uxz p beta alpha1 (T ω)).2.1 (uxz p beta alpha1 (T ω)).2.2 ∂P =
      p * (logistic alpha1 * (logistic beta * A 1 1 1 + (1 - logistic beta) * A 1 1 0) + (1 - logistic alpha1) * (1 / 2 * A 1 0 1 + 1 / 2 * A 1 0 0)) +
      (1 - p) * (1 / 2 * (logistic beta * A 0 1 1 + (1 - logistic beta) * A 0 1 0) + 1 / 2 * (1 / 2 * A 0 0 1 + 1 / 2 * A 0 0 0)) := by
  have := affine3_integral (beta := beta) (alpha1 := alpha1) hT hl hp A fun _ _ _ => 0
  simpa using this

end
end Example
end Verif
