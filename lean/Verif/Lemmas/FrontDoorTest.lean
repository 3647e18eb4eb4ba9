import Verif.Lemmas.FrontDoorLimit2
import Verif.Lemmas.WeakLaw

/-!
# Front-door parameters fitted on one large sample
-/

set_option linter.unusedSectionVars false
set_option linter.unusedSimpArgs false

namespace Verif
open MeasureTheory ProbabilityTheory Filter Topology Arm Param
open scoped ENNReal

namespace FrontDoor
variable {M : Type} {S : Finset ℤ} {R : Predictor M ℝ} {SR : M → Prop} {μ : ℤ} {κ ratio lam : ℝ}

/-- a parameter with given settings that is fitted on samples whose moments converge -/
theorem fits_converge (hR : R.IsRidgeIntercept SR lam) (hμ : 1 ≤ μ) (h2 : κ ≤ 1 / 2) (hr : 1 ≤ ratio) {e0 : FrontDoor M ℝ} (he : Regular S SR μ κ ratio e0)
    {us : ℕ → List (Obs ℝ)} (hlen : Tendsto (fun n => (us n).length) atTop atTop) (hfin : ∀ n, ∀ u ∈ us n, u.FiniteZ S) {q : ℝ} (hq0 : 0 < q) (hq1 : q < 1)
    (hq : Tendsto (fun n => pmean ((us n).map Obs.xv)) atTop (𝓝 q)) {b : Fin 3 → ℝ}
    (hrid : ∀ θ : ℕ → Fin 3 → ℝ, (∀ᶠ n in atTop, ∀ t : Fin 3 → ℝ, interceptLoss (k := 1) (us n) lam (θ n) ≤ interceptLoss (k := 1) (us n) lam t) → Tendsto θ atTop (𝓝 b))
    {c : ℤ → ℤ → ℝ} (hc : ∀ x : ℤ, x = 0 ∨ x = 1 → ∀ a ∈ S, Tendsto (fun n => unitFreq (us n) x a) atTop (𝓝 (c x a)) ∧
      1 / (S.card : ℝ) / ratio < c x a ∧ c x a < 1 - 1 / (S.card : ℝ) / ratio) :
    ∃ (e : ℕ → FrontDoor M ℝ) (θ : ℕ → Fin 3 → ℝ), (∀ᶠ n in atTop, fit R (Obs.dataset 1 (us n)) e0 = (.ok (), e n) ∧
        ∀ r, r.length = 2 → R.predict (e n).yResponse r = affineValue (θ n) r) ∧ Tendsto θ atTop (𝓝 b) ∧
      Tendsto (fun n => (e n).expProb) atTop (𝓝 (clamp κ q)) ∧
      ∀ x : ℤ, x = 0 ∨ x = 1 → ∀ a ∈ S, Tendsto (fun n => (e n).cpd.cell (.int x) [.int a]) atTop (𝓝 (c x a)) := by
  have hr0 : ratio ≠ 0 := by intro h; rw [h] at hr; linarith
  have hen := AIPW.enough_of_mean hlen (fun n u hu => (hfin n u hu).binary) hq0 hq1 hq μ
  have hne : ∀ᶠ n in atTop, us n ≠ [] := by
    filter_upwards [hlen.eventually_ge_atTop 1] with n hn h
    rw [h] at hn
    simp at hn
  have hch : ∀ n, ∃ (e : FrontDoor M ℝ) (θ : Fin 3 → ℝ), us n ≠ [] → fit R (Obs.dataset 1 (us n)) e0 = (.ok (), e) ∧ Regular S SR μ κ ratio e ∧
      (μ ≤ Obs.treated (us n) ∧ μ ≤ Obs.control (us n) → FittedOn R lam κ (us n) e θ) := by
    intro n
    by_cases h : us n = []
    · exact ⟨e0, 0, fun h' => absurd h h'⟩
    obtain ⟨e, a1, a2, a3⟩ := fit_regular hR hμ hr0 h2 he h (hfin n)
    by_cases h' : μ ≤ Obs.treated (us n) ∧ μ ≤ Obs.control (us n)
    · obtain ⟨θ, hθ⟩ := a3 h'
      exact ⟨e, θ, fun _ => ⟨a1, a2, fun _ => hθ⟩⟩
    · exact ⟨e, 0, fun _ => ⟨a1, a2, fun h => absurd h h'⟩⟩
  choose e θ hf using hch
  refine ⟨e, θ, ?_, hrid θ ?_, ?_, ?_⟩
  · filter_upwards [hen, hne] with n a1 a2
    exact ⟨(hf n a2).1, ((hf n a2).2.2 a1).response⟩
  · filter_upwards [hen, hne] with n a1 a2
    exact ((hf n a2).2.2 a1).ridge
  · refine (((clamp_continuous κ).tendsto _).comp hq).congr' ?_
    filter_upwards [hen, hne] with n a1 a2
    exact ((hf n a2).2.2 a1).q.symm
  · intro x hx a ha
    have hev : ∀ b ∈ S, ∀ᶠ n in atTop, 1 / (S.card : ℝ) / ratio ≤ unitFreq (us n) x b ∧ unitFreq (us n) x b ≤ 1 - 1 / (S.card : ℝ) / ratio := by
      intro b hb
      obtain ⟨l, p1, p2⟩ := hc x hx b hb
      filter_upwards [l.eventually_const_le p1, l.eventually_le_const p2] with n b1 b2
      exact ⟨b1, b2⟩
    refine (hc x hx a ha).1.congr' ?_
    filter_upwards [hen, hne, (Finset.eventually_all S).2 hev] with n a1 a2 a3
    have := (table_freq hr (hf n a2).2.1 ((hf n a2).2.2 a1) a3 a ha).2
    unfold tableOf at this
    rw [Int.floor_intCast, Int.floor_intCast] at this
    exact this.symm

variable {Ω : Type} [MeasurableSpace Ω] {P : Measure Ω} [IsProbabilityMeasure P]

/-- the functions of a unit whose means decide -/
noncomputable def testFn (S : Finset ℤ) : (Fin 3 × Fin 3) ⊕ Fin 3 ⊕ (Bool × S) ⊕ Bool → (Fin 1 → ℝ) × ℝ × ℝ → ℝ
  | .inl (i, j), p => affineRegressor p i * affineRegressor p j
  | .inr (.inl j), p => affineRegressor p j * p.2.2
  | .inr (.inr (.inl (x, a))), p => (cellSet (if x then 1 else 0) ((a : ℤ) : ℝ)).indicator (fun _ => 1) p
  | .inr (.inr (.inr x)), p => (rowSet (if x then 1 else 0)).indicator (fun _ => 1) p

theorem measurable_testFn (j) : Measurable (testFn S j) := by
  rcases j with ⟨i, j⟩ | j | ⟨x, a⟩ | x
  · exact (measurable_affineRegressor i).mul (measurable_affineRegressor j)
  · exact (measurable_affineRegressor j).mul (by fun_prop)
  · exact measurable_const.indicator (measurableSet_cell _ _)
  · exact measurable_const.indicator (measurableSet_row _)

/-- A parameter fitted on `n` units of a population has, with a probability that tends to 1, every property that parameters have whose nuisance values converge to those of the
population. -/
theorem fit_likely (hR : R.IsRidgeIntercept SR lam) (hl : 0 ≤ lam) (hμ : 1 ≤ μ) (h2 : κ ≤ 1 / 2) (hr : 1 ≤ ratio) {e0 : FrontDoor M ℝ} (he : Regular S SR μ κ ratio e0)
    {X : ℕ → ℕ → Ω → Obs ℝ} (hX : ∀ n, 0 < n → Iid P fun k ω => (X n k ω).point 1) {Y : Ω → (Fin 1 → ℝ) × ℝ × ℝ} (hY : ∀ n, 0 < n → IdentDistrib (fun ω => (X n 0 ω).point 1) Y P P)
    (hfin : ∀ n k ω, (X n k ω).FiniteZ S) (hYS : ∀ ω, Listed S (Y ω)) (hy : MemLp (fun ω => (Y ω).2.2) 2 P)
    (hnd : Nondegenerate P fun ω => affineRegressor (Y ω)) {b : Fin 3 → ℝ} (hb : LeastSquaresIntercept P Y b)
    (hp : ∀ x : ℤ, x = 0 ∨ x = 1 → ∀ a ∈ S, 1 / (S.card : ℝ) / ratio < condProb P Y x a ∧ condProb P Y x a < 1 - 1 / (S.card : ℝ) / ratio)
    {Good : FrontDoor M ℝ → Prop}
    (hG : ∀ (e : ℕ → FrontDoor M ℝ) (θ : ℕ → Fin 3 → ℝ), (∀ᶠ n in atTop, ∀ r, r.length = 2 → R.predict (e n).yResponse r = affineValue (θ n) r) → Tendsto θ atTop (𝓝 b) →
      Tendsto (fun n => (e n).expProb) atTop (𝓝 (clamp κ (P.real {ω | (Y ω).2.1 = 1}))) →
      (∀ x : ℤ, x = 0 ∨ x = 1 → ∀ a ∈ S, Tendsto (fun n => (e n).cpd.cell (.int x) [.int a]) atTop (𝓝 (condProb P Y x a))) → ∀ᶠ n in atTop, Good (e n)) :
    Tendsto (fun n => P {ω | ¬ ∃ e, fit R (Obs.dataset 1 ((List.range n).map fun k => X n k ω)) e0 = (.ok (), e) ∧ Good e}) atTop (𝓝 0) := by
  have hYm : AEMeasurable Y P := (hY 1 one_pos).aemeasurable_snd
  have hL := listed_memLp hYm hYS
  have hm0 : 0 ≤ 1 / (S.card : ℝ) / ratio := by positivity
  obtain ⟨a0, ha0⟩ : S.Nonempty := by
    obtain ⟨ω⟩ := nonempty_of_isProbabilityMeasure P
    obtain ⟨a, ha, -⟩ := (hYS ω).2
    exact ⟨a, ha⟩
  have hrow : ∀ x : ℤ, x = 0 ∨ x = 1 → P.real {ω | (Y ω).2.1 = x} ≠ 0 := fun x hx => row_pos hm0 (hp x hx a0 ha0).1
  obtain ⟨r1, r2⟩ := row_probs hYm fun ω => (hYS ω).1
  have q0 : 0 < P.real {ω | (Y ω).2.1 = 1} := by
    have := hrow 1 (Or.inr rfl)
    rw [Int.cast_one] at this
    exact lt_of_le_of_ne measureReal_nonneg this.symm
  have q1 : P.real {ω | (Y ω).2.1 = 1} < 1 := by
    have := hrow 0 (Or.inl rfl)
    rw [Int.cast_zero] at this
    have h3 := lt_of_le_of_ne measureReal_nonneg this.symm
    rw [r2] at h3
    linarith
  have hdet := Nondegenerate.moments_det (V := fun ω => augment (Y ω)) hnd (hL 2)
  have hmom := LeastSquares.moments (V := fun ω => augment (Y ω)) hb (hL 2) hy
  refine likely (J := (Fin 3 × Fin 3) ⊕ Fin 3 ⊕ (Bool × S) ⊕ Bool) hX hY (g := testFn S) measurable_testFn ?_ ?_
  · rintro (⟨i, j⟩ | j | ⟨x, a⟩ | x)
    · exact (hL 2 j).mul' (hL ⊤ i)
    · exact hy.mul' (hL ⊤ j)
    · refine MemLp.of_bound (((measurable_testFn (S := S) (.inr (.inr (.inl (x, a))))).comp_aemeasurable hYm).aestronglyMeasurable) 1 (Eventually.of_forall fun ω => ?_)
      exact (norm_indicator_le_norm_self (fun _ => (1 : ℝ)) _).trans (le_of_eq norm_one)
    · refine MemLp.of_bound (((measurable_testFn (S := S) (.inr (.inr (.inr x)))).comp_aemeasurable hYm).aestronglyMeasurable) 1 (Eventually.of_forall fun ω => ?_)
      exact (norm_indicator_le_norm_self (fun _ => (1 : ℝ)) _).trans (le_of_eq norm_one)
  intro N x hN hx
  set us : ℕ → List (Obs ℝ) := fun i => (List.range (N i)).map fun k => X (N i) k (x i) with hus
  have hmean : ∀ g : (Fin 1 → ℝ) × ℝ × ℝ → ℝ, ∀ i, empMean g (fun k ω => (X (N i) k ω).point 1) (N i) (x i) = pmean ((us i).map fun u => g (u.point 1)) := by
    intro g i
    rw [hus, List.map_map]
    rfl
  simp only [hmean] at hx
  obtain ⟨e, θ, h3, h4, h5, h6⟩ := fits_converge hR hμ h2 hr he (us := us) (b := b) (c := fun x a => condProb P Y x a) (by simpa [hus] using hN)
    (by
      intro n u hu
      obtain ⟨k, -, rfl⟩ := List.mem_map.1 hu
      exact hfin _ _ _) q0 q1
    (by
      have := hx (.inl (0, 1))
      simp only [testFn] at this
      have e1 : ∀ p : (Fin 1 → ℝ) × ℝ × ℝ, affineRegressor p 0 * affineRegressor p 1 = p.2.1 := fun p => one_mul _
      simp only [e1, r1] at this
      exact this)
    (fun θ hθ => minimisers_tendsto (us := us) (by simpa [hus] using hN) (fun u => affineRegressor (u.point 1)) Obs.yv (penalty_nonneg hl) hdet
      (fun i j => hx (.inl (i, j))) (fun j => by rw [← hmom j]; exact hx (.inr (.inl j))) hθ)
    (by
      intro y hy a ha
      refine ⟨?_, hp y hy a ha⟩
      have hcast : ∃ bb : Bool, ((if bb then 1 else 0 : ℝ)) = y := by
        rcases hy with rfl | rfl
        · exact ⟨false, by simp⟩
        · exact ⟨true, by simp⟩
      obtain ⟨bb, hbb⟩ := hcast
      have c1 := hx (.inr (.inr (.inl (bb, ⟨a, ha⟩))))
      have c2 := hx (.inr (.inr (.inr bb)))
      simp only [testFn, hbb] at c1 c2
      rw [integral_indicator_comp hYm (measurableSet_cell _ _)] at c1
      rw [integral_indicator_comp hYm (measurableSet_row _)] at c2
      refine (c1.div c2 (hrow y hy)).congr fun i => ?_
      rw [hus, unitFreq_pmean (fun k => hfin _ _ _)]
      simp only [List.map_map, Function.comp_def, Pi.div_apply])
  obtain ⟨i, h7, h8⟩ := (h3.and (hG e θ (h3.mono fun _ h => h.2) h4 h5 h6)).exists
  exact ⟨i, e i, h7.1, h8⟩

end FrontDoor
end Verif
