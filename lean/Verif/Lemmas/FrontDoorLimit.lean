import Verif.Lemmas.FrontDoorFit
import Verif.Lemmas.Stream6
import Verif.Lemmas.AipwLimit2

/-!
# The limit of the scores of front-door parameters
-/

set_option linter.unusedSectionVars false
set_option linter.unusedSimpArgs false

namespace Verif
open MeasureTheory ProbabilityTheory Filter Topology Arm Param
open scoped ENNReal

/-! ## The score as a function of its nuisance values -/

section
variable {κ : ℝ} {S : Finset ℤ}

/-- the unit with exposure `x`, covariate `a` and response `y` -/
def cellPoint (a : ℤ) (x y : ℝ) : (Fin 1 → ℝ) × ℝ × ℝ := (fun _ => (a : ℝ), x, y)

theorem clamp_mem (h2 : κ ≤ 1 / 2) (p : ℝ) : κ ≤ clamp κ p ∧ clamp κ p ≤ 1 - κ :=
  ⟨le_min (le_max_right _ _) (by linarith), min_le_right _ _⟩

theorem clamp_continuous (κ : ℝ) : Continuous (clamp κ) := by
  unfold clamp
  fun_prop

theorem point_affine (q : ℝ) (mu c : ℝ → ℝ → ℝ) (a : ℤ) (x y : ℝ) :
    frontDoorPoint κ q mu c S (cellPoint a x y) =
      frontDoorPoint κ q mu c S (cellPoint a x 0) + y * (frontDoorPoint κ q mu c S (cellPoint a x 1) - frontDoorPoint κ q mu c S (cellPoint a x 0)) := by
  unfold frontDoorPoint cellPoint
  dsimp only
  ring

/-- points of units with finitely many exposures and covariates -/
def Listed (S : Finset ℤ) (p : (Fin 1 → ℝ) × ℝ × ℝ) : Prop := (p.2.1 = 0 ∨ p.2.1 = 1) ∧ ∃ a ∈ S, p.1 0 = a

theorem Listed.eq {p : (Fin 1 → ℝ) × ℝ × ℝ} (h : Listed S p) : ∃ a ∈ S, p = cellPoint a p.2.1 p.2.2 := by
  obtain ⟨-, a, ha, h⟩ := h
  refine ⟨a, ha, ?_⟩
  unfold cellPoint
  obtain ⟨z, x, y⟩ := p
  simp only [Prod.mk.injEq, and_true]
  funext j
  fin_cases j
  exact h

/-- a bound on functions that are affine in the response -/
theorem affine_bound {D : (Fin 1 → ℝ) × ℝ × ℝ → ℝ} (hD : ∀ a x y, D (cellPoint a x y) = D (cellPoint a x 0) + y * (D (cellPoint a x 1) - D (cellPoint a x 0)))
    {p : (Fin 1 → ℝ) × ℝ × ℝ} (hp : Listed S p) :
    |D p| ≤ (∑ a ∈ S, ((|D (cellPoint a 0 0)| + |D (cellPoint a 0 1)|) + (|D (cellPoint a 1 0)| + |D (cellPoint a 1 1)|))) * (1 + |p.2.2|) := by
  obtain ⟨a, ha, e⟩ := hp.eq
  have h1 : ∀ x, |D (cellPoint a x p.2.2)| ≤ (|D (cellPoint a x 0)| + |D (cellPoint a x 1)|) * (1 + |p.2.2|) := by
    intro x
    rw [hD a x p.2.2]
    have e1 := abs_add_le (D (cellPoint a x 0)) (p.2.2 * (D (cellPoint a x 1) - D (cellPoint a x 0)))
    rw [abs_mul] at e1
    have e2 := abs_sub (D (cellPoint a x 1)) (D (cellPoint a x 0))
    have e3 := mul_le_mul_of_nonneg_left e2 (abs_nonneg p.2.2)
    nlinarith [abs_nonneg (D (cellPoint a x 1)), abs_nonneg (D (cellPoint a x 0))]
  have h2 := Finset.single_le_sum (f := fun a => (|D (cellPoint a 0 0)| + |D (cellPoint a 0 1)|) + (|D (cellPoint a 1 0)| + |D (cellPoint a 1 1)|))
    (fun i _ => by positivity) ha
  have h3 : |D p| ≤ ((|D (cellPoint a 0 0)| + |D (cellPoint a 0 1)|) + (|D (cellPoint a 1 0)| + |D (cellPoint a 1 1)|)) * (1 + |p.2.2|) := by
    have hy : 0 ≤ 1 + |p.2.2| := by positivity
    rw [e]
    show |D (cellPoint a p.2.1 p.2.2)| ≤ _ * (1 + |p.2.2|)
    rcases hp.1 with h | h
    · rw [h]
      refine (h1 0).trans (mul_le_mul_of_nonneg_right ?_ hy)
      have : 0 ≤ |D (cellPoint a 1 0)| + |D (cellPoint a 1 1)| := by positivity
      linarith
    · rw [h]
      refine (h1 1).trans (mul_le_mul_of_nonneg_right ?_ hy)
      have : 0 ≤ |D (cellPoint a 0 0)| + |D (cellPoint a 0 1)| := by positivity
      linarith
  exact h3.trans (mul_le_mul_of_nonneg_right h2 (by positivity))

theorem point_tendsto (h1 : 0 < κ) (h2 : κ ≤ 1 / 2) {q : ℕ → ℝ} {q0 : ℝ} (hq : Tendsto q atTop (𝓝 q0)) (hq0 : 0 < q0) (hq1 : q0 < 1)
    {mu : ℕ → ℝ → ℝ → ℝ} {mu0 : ℝ → ℝ → ℝ} (hmu : ∀ x a, Tendsto (fun n => mu n x a) atTop (𝓝 (mu0 x a)))
    {c : ℕ → ℝ → ℝ → ℝ} {c0 : ℝ → ℝ → ℝ} (hc0 : ∀ a ∈ S, Tendsto (fun n => c n 0 a) atTop (𝓝 (c0 0 a))) (hc1 : ∀ a ∈ S, Tendsto (fun n => c n 1 a) atTop (𝓝 (c0 1 a)))
    {p : (Fin 1 → ℝ) × ℝ × ℝ} (hp : Listed S p) :
    Tendsto (fun n => frontDoorPoint κ (q n) (mu n) (c n) S p) atTop (𝓝 (frontDoorPoint κ q0 mu0 c0 S p)) := by
  obtain ⟨hx, a, ha, hz⟩ := hp
  have hk : ∀ {g : ℕ → ℝ} {l : ℝ}, Tendsto g atTop (𝓝 l) → Tendsto (fun n => clamp κ (g n)) atTop (𝓝 (clamp κ l)) := fun h =>
    ((clamp_continuous κ).tendsto _).comp h
  have hcx : Tendsto (fun n => c n p.2.1 (p.1 0)) atTop (𝓝 (c0 p.2.1 (p.1 0))) := by
    rw [hz]
    rcases hx with h | h <;> rw [h]
    · exact hc0 a ha
    · exact hc1 a ha
  have h0' : Tendsto (fun n => c n 0 (p.1 0)) atTop (𝓝 (c0 0 (p.1 0))) := by rw [hz]; exact hc0 a ha
  have h1' : Tendsto (fun n => c n 1 (p.1 0)) atTop (𝓝 (c0 1 (p.1 0))) := by rw [hz]; exact hc1 a ha
  have hne : clamp κ (c0 p.2.1 (p.1 0)) ≠ 0 := by have := (clamp_mem h2 (c0 p.2.1 (p.1 0))).1; linarith
  have t1 := (((hmu p.2.1 (p.1 0)).const_sub p.2.2).mul ((hk h1').sub (hk h0'))).div (hk hcx) hne
  have t2 : Tendsto (fun n => ∑ a ∈ S, mu n p.2.1 a * (c n 1 a - c n 0 a)) atTop (𝓝 (∑ a ∈ S, mu0 p.2.1 a * (c0 1 a - c0 0 a))) :=
    tendsto_finsetSum _ fun b hb => (hmu p.2.1 b).mul ((hc1 b hb).sub (hc0 b hb))
  have t3 : Tendsto (fun n => p.2.1 / q n - (1 - p.2.1) / (1 - q n)) atTop (𝓝 (p.2.1 / q0 - (1 - p.2.1) / (1 - q0))) :=
    (tendsto_const_nhds.div hq hq0.ne').sub (tendsto_const_nhds.div (hq.const_sub 1) (by linarith))
  have t4 : Tendsto (fun n => q n * mu n 1 (p.1 0) + (1 - q n) * mu n 0 (p.1 0)) atTop (𝓝 (q0 * mu0 1 (p.1 0) + (1 - q0) * mu0 0 (p.1 0))) :=
    (hq.mul (hmu _ _)).add ((hq.const_sub 1).mul (hmu _ _))
  have t5 : Tendsto (fun n => ∑ a ∈ S, (mu n 1 a * q n * clamp κ (c n 1 (p.1 0)) + mu n 0 a * (1 - q n) * clamp κ (c n 0 (p.1 0)))) atTop
      (𝓝 (∑ a ∈ S, (mu0 1 a * q0 * clamp κ (c0 1 (p.1 0)) + mu0 0 a * (1 - q0) * clamp κ (c0 0 (p.1 0))))) :=
    tendsto_finsetSum _ fun b _ => (((hmu 1 b).mul hq).mul (hk h1')).add (((hmu 0 b).mul (hq.const_sub 1)).mul (hk h0'))
  exact (t1.add t2).add (t3.mul (t4.sub t5))

/-- the table `c`, kept only for exposures 0 and 1 and covariates of `S` -/
noncomputable def snap (S : Finset ℤ) (c : ℝ → ℝ → ℝ) (x a : ℝ) : ℝ :=
  ∑ b ∈ S, if a = b then (if x = 1 then c 1 b else if x = 0 then c 0 b else 0) else 0

theorem snap_eq (c : ℝ → ℝ → ℝ) {x : ℝ} (hx : x = 0 ∨ x = 1) {a : ℤ} (ha : a ∈ S) : snap S c x a = c x a := by
  unfold snap
  rw [Finset.sum_eq_single a]
  · rcases hx with h | h <;> simp [h]
  · intro b _ hb
    rw [if_neg]
    intro h
    exact hb (by exact_mod_cast h.symm)
  · intro h
    exact absurd ha h

theorem point_snap (q : ℝ) (mu c : ℝ → ℝ → ℝ) {p : (Fin 1 → ℝ) × ℝ × ℝ} (hp : Listed S p) :
    frontDoorPoint κ q mu (snap S c) S p = frontDoorPoint κ q mu c S p := by
  obtain ⟨hx, a, ha, hz⟩ := hp
  have hs : ∑ b ∈ S, mu p.2.1 b * (snap S c 1 b - snap S c 0 b) = ∑ b ∈ S, mu p.2.1 b * (c 1 b - c 0 b) :=
    Finset.sum_congr rfl fun b hb => by rw [snap_eq c (Or.inl rfl) hb, snap_eq c (Or.inr rfl) hb]
  unfold frontDoorPoint
  rw [hs, hz, snap_eq c hx ha, snap_eq c (Or.inl rfl) ha, snap_eq c (Or.inr rfl) ha]

theorem measurable_snap (c : ℝ → ℝ → ℝ) {f g : (Fin 1 → ℝ) × ℝ × ℝ → ℝ} (hf : Measurable f) (hg : Measurable g) : Measurable fun p => snap S c (f p) (g p) := by
  unfold snap
  refine Finset.measurable_fun_sum _ fun b _ => ?_
  refine Measurable.ite (hg (measurableSet_singleton _)) ?_ measurable_const
  refine Measurable.ite (hf (measurableSet_singleton _)) measurable_const ?_
  exact Measurable.ite (hf (measurableSet_singleton _)) measurable_const measurable_const

theorem measurable_point (q : ℝ) (b : Fin 3 → ℝ) (c : ℝ → ℝ → ℝ) : Measurable (frontDoorPoint κ q (planeValue b) (snap S c) S) := by
  have hk : Measurable (clamp κ) := (clamp_continuous κ).measurable
  have hz : Measurable fun p : (Fin 1 → ℝ) × ℝ × ℝ => p.1 0 := (measurable_pi_apply 0).comp measurable_fst
  have hx : Measurable fun p : (Fin 1 → ℝ) × ℝ × ℝ => p.2.1 := by fun_prop
  have m1 := hk.comp (measurable_snap (S := S) c (measurable_const (a := (1 : ℝ))) hz)
  have m0 := hk.comp (measurable_snap (S := S) c (measurable_const (a := (0 : ℝ))) hz)
  have mx := hk.comp (measurable_snap (S := S) c hx hz)
  simp only [Function.comp_def] at m1 m0 mx
  unfold frontDoorPoint planeValue
  fun_prop

end

end Verif
