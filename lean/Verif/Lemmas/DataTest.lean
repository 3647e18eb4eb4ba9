import Verif.Model.DataTest
import Verif.Spec.DataTest
import Verif.Lemmas.WeakLaw
import Verif.Lemmas.BackDoorUnit2
import Mathlib.Analysis.SpecialFunctions.Trigonometric.Series
import Mathlib.Analysis.Convex.Mul

/-!
# Empirical means and variances of the data of the back-door example
-/

set_option linter.unusedSectionVars false
set_option linter.unusedSimpArgs false

namespace Verif
open MeasureTheory ProbabilityTheory Filter Topology

namespace DataTest

theorem mean_linear (xs : List ℝ) (h : xs ≠ []) (c d e : ℝ) : mean (xs.map fun x => c * x ^ 2 + d * x + e) = c * mean (xs.map fun x => x ^ 2) + d * mean xs + e := by
  have hl : (xs.length : ℝ) ≠ 0 := by simpa using h
  have : ∀ ys : List ℝ, (ys.map fun x => c * x ^ 2 + d * x + e).sum = c * (ys.map fun x => x ^ 2).sum + d * ys.sum + e * ys.length := by
    intro ys
    induction ys with
    | nil => simp
    | cons y ys ih =>
      simp only [List.map_cons, List.sum_cons, ih, List.length_cons, Nat.cast_add, Nat.cast_one]
      ring
  unfold mean
  rw [this, List.length_map, List.length_map]
  field_simp

/-- the mean squared deviation from a number -/
theorem mean_dev (xs : List ℝ) (h : xs ≠ []) (μ : ℝ) : mean (xs.map fun x => (x - μ) ^ 2) = mean (xs.map fun x => x ^ 2) - 2 * μ * mean xs + μ ^ 2 := by
  have := mean_linear xs h 1 (-2 * μ) (μ ^ 2)
  rw [show (fun x : ℝ => (x - μ) ^ 2) = fun x => 1 * x ^ 2 + -2 * μ * x + μ ^ 2 by funext x; ring, this]
  ring

theorem var_eq (xs : List ℝ) (h : xs ≠ []) (μ : ℝ) : var xs = mean (xs.map fun x => (x - μ) ^ 2) - (mean xs - μ) ^ 2 := by
  rw [var, mean_dev xs h, mean_dev xs h]
  ring

theorem square_eq (xs : List ℝ) (h : xs ≠ []) (μ : ℝ) : mean (xs.map fun x => x ^ 2) = mean (xs.map fun x => (x - μ) ^ 2) + 2 * μ * (mean xs - μ) + μ ^ 2 := by
  rw [mean_dev xs h]
  ring

theorem var_binary (xs : List ℝ) (h : xs ≠ []) (hb : ∀ x ∈ xs, x = 0 ∨ x = 1) : var xs = mean xs * (1 - mean xs) := by
  rw [var_eq xs h 0, show (xs.map fun x => (x - 0) ^ 2) = xs.map fun x => x from List.map_congr_left fun x hx => by rcases hb x hx with rfl | rfl <;> norm_num, List.map_id']
  ring

theorem mean_binary (xs : List ℝ) (h : xs ≠ []) (hb : ∀ x ∈ xs, x = 0 ∨ x = 1) : 0 ≤ mean xs ∧ mean xs ≤ 1 := by
  have hl : 0 < (xs.length : ℝ) := by
    have := List.length_pos_iff.2 h
    exact_mod_cast this
  have h1 : ∀ ys : List ℝ, (∀ x ∈ ys, x = 0 ∨ x = 1) → 0 ≤ ys.sum ∧ ys.sum ≤ ys.length := by
    intro ys
    induction ys with
    | nil => simp
    | cons y ys ih =>
      intro hy
      obtain ⟨i1, i2⟩ := ih fun x hx => hy x (List.mem_cons_of_mem _ hx)
      simp only [List.sum_cons, List.length_cons, Nat.cast_add, Nat.cast_one]
      rcases hy y List.mem_cons_self with rfl | rfl <;> constructor <;> linarith
  obtain ⟨i1, i2⟩ := h1 xs hb
  exact ⟨div_nonneg i1 hl.le, (div_le_one hl).2 i2⟩

end DataTest

namespace Example

/-! ## The fourth moment of the normal distribution -/

theorem four_le_cosh (x : ℝ) : x ^ 4 ≤ 24 * (Real.cosh x - 1 - x ^ 2 / 2) := by
  have h := sum_le_hasSum (Finset.range 3) (fun i _ => div_nonneg (Even.pow_nonneg (even_two_mul i) x) (by positivity)) (Real.hasSum_cosh x)
  simp only [Finset.sum_range_succ, Finset.sum_range_zero, Nat.factorial] at h
  norm_num at h
  linarith

theorem integrable_cosh : Integrable Real.cosh (gaussianReal 0 1) := by
  have h1 : Integrable (fun x => Real.exp (1 * x)) (gaussianReal 0 1) := integrable_exp_mul_gaussianReal 1
  have h2 : Integrable (fun x => Real.exp (-1 * x)) (gaussianReal 0 1) := integrable_exp_mul_gaussianReal (-1)
  have := (h1.add h2).div_const 2
  refine this.congr (Eventually.of_forall fun x => ?_)
  simp [Real.cosh_eq]

theorem integral_cosh : ∫ x, Real.cosh x ∂gaussianReal 0 1 = Real.exp (1 / 2) := by
  have h1 : Integrable (fun x => Real.exp (1 * x)) (gaussianReal 0 1) := integrable_exp_mul_gaussianReal 1
  have h2 : Integrable (fun x => Real.exp (-1 * x)) (gaussianReal 0 1) := integrable_exp_mul_gaussianReal (-1)
  have m : ∀ t : ℝ, ∫ x, Real.exp (t * x) ∂gaussianReal 0 1 = Real.exp (t ^ 2 / 2) := fun t => by
    have := congrFun (mgf_id_gaussianReal (μ := 0) (v := 1)) t
    simpa [mgf] using this
  have e : ∀ x, Real.cosh x = (Real.exp (1 * x) + Real.exp (-1 * x)) / 2 := fun x => by simp [Real.cosh_eq]
  simp only [e]
  rw [integral_div, integral_add h1 h2, m, m]
  norm_num

theorem gauss_four : ∫ x, x ^ 4 ∂gaussianReal 0 1 ≤ 4 := by
  have h4 : Integrable (fun x : ℝ => x ^ 4) (gaussianReal 0 1) := by
    have := (memLp_id_gaussianReal' (μ := 0) (v := 1) 4 (by norm_num)).integrable_norm_pow (by norm_num)
    refine this.congr (Eventually.of_forall fun x => ?_)
    exact Even.pow_abs (by decide : Even 4) _
  have h2 : Integrable (fun x : ℝ => x ^ 2) (gaussianReal 0 1) := (memLp_id_gaussianReal (μ := 0) (v := 1) 2).integrable_sq
  have i : Integrable (fun x : ℝ => 24 * (Real.cosh x - 1 - x ^ 2 / 2)) (gaussianReal 0 1) := (((integrable_cosh.sub (integrable_const 1)).sub (h2.div_const 2))).const_mul 24
  have m2 : ∫ x, x ^ 2 ∂gaussianReal 0 1 = 1 := by
    have := gauss_quad 0 0 1
    simpa using this
  have hm := integral_mono h4 i four_le_cosh
  have ic : Integrable (fun x : ℝ => Real.cosh x - 1) (gaussianReal 0 1) := integrable_cosh.sub (integrable_const 1)
  rw [integral_const_mul, integral_sub ic (h2.div_const 2), integral_sub integrable_cosh (integrable_const 1), integral_cosh, integral_div, m2] at hm
  have he : Real.exp (1 / 2) ≤ 1.66 := by
    have h1 : Real.exp (1 / 2) ^ 2 = Real.exp 1 := by rw [← Real.exp_nat_mul]; norm_num
    have h3 := Real.exp_one_lt_d9
    nlinarith [Real.exp_pos (1 / 2 : ℝ)]
  simp at hm
  norm_num at he
  linarith

theorem four_convex (m e : ℝ) : (m + e) ^ 4 ≤ 216 / 125 * m ^ 4 + 216 * e ^ 4 := by
  have h := (Even.convexOn_pow (𝕜 := ℝ) (n := 4) (by decide)).2 (Set.mem_univ (6 / 5 * m)) (Set.mem_univ (6 * e)) (show (0 : ℝ) ≤ 5 / 6 by norm_num) (show (0 : ℝ) ≤ 1 / 6 by norm_num) (by norm_num)
  simp only [smul_eq_mul] at h
  have e1 : 5 / 6 * (6 / 5 * m) + 1 / 6 * (6 * e) = m + e := by ring
  rw [e1] at h
  nlinarith

/-! ## The responses -/

section
variable {Ω : Type} [MeasurableSpace Ω] {P : Measure Ω} [IsProbabilityMeasure P] {T : Ω → ℝ × ℝ × ℝ} {p beta alpha : ℝ}

/-- the response -/
noncomputable def backY (p beta alpha : ℝ) (q : ℝ × ℝ × ℝ) : ℝ := 10 * (zx p alpha q).2 + beta * (zx p alpha q).1 + q.2.2

theorem measurable_backY : Measurable (backY p beta alpha) :=
  (((measurable_snd.comp (measurable_zx p alpha)).const_mul 10).add ((measurable_fst.comp (measurable_zx p alpha)).const_mul beta)).add (measurable_snd.comp measurable_snd)

/-- parameters in the ranges of `back_door_scm` -/
structure Drawn (p beta alpha : ℝ) : Prop where
  p : p ∈ Set.Icc (1 / 5 : ℝ) (4 / 5)
  beta : beta ∈ Set.Icc (-3 : ℝ) 3
  alpha : alpha ∈ Set.Icc (-(3 / 10) : ℝ) (3 / 10)

variable (hT : Measurable T) (hl : P.map T = unitLaw) (hv : Valid p alpha)
include hT hl hv

theorem backY_memLp (r : ENNReal) (hr : r ≠ ⊤) : MemLp (fun ω => backY p beta alpha (T ω)) r P :=
  (table_memLp (p := p) (alpha := alpha) hT hl (fun z x => 10 * x + beta * z) r).add (normal_memLp hT hl r hr)

theorem backY_mean : ∫ ω, backY p beta alpha (T ω) ∂P = (backDoorStats p beta alpha).muY := by
  rw [(affine_moments hT hl hv (f := fun ω => backY p beta alpha (T ω)) (fun z x => 10 * x + beta * z) (fun _ _ => 1) fun ω => by simp [backY]).1]
  simp only [backDoorStats]
  ring

theorem backY_variance : Var[fun ω => backY p beta alpha (T ω); P] = (backDoorStats p beta alpha).varY + backCross p beta alpha := by
  rw [(affine_moments hT hl hv (f := fun ω => backY p beta alpha (T ω)) (fun z x => 10 * x + beta * z) (fun _ _ => 1) fun ω => by simp [backY]).2]
  simp only [backDoorStats, backCross]
  ring

theorem dev_mean : ∫ ω, (backY p beta alpha (T ω) - (backDoorStats p beta alpha).muY) ^ 2 ∂P = (backDoorStats p beta alpha).varY + backCross p beta alpha := by
  rw [← backY_variance hT hl hv, variance_eq_integral (X := fun ω => backY p beta alpha (T ω)) (measurable_backY.comp hT).aemeasurable, backY_mean hT hl hv]

theorem dev_memLp : MemLp (fun ω => (backY p beta alpha (T ω) - (backDoorStats p beta alpha).muY) ^ 2) 2 P := by
  have h := (backY_memLp (beta := beta) hT hl hv 4 (by norm_num)).sub (memLp_const (backDoorStats p beta alpha).muY)
  refine (memLp_two_iff_integrable_sq ?_).2 ?_
  · exact ((measurable_backY.comp hT).sub_const _).pow_const 2 |>.aestronglyMeasurable
  · have := h.integrable_norm_pow (by norm_num)
    refine this.congr (Eventually.of_forall fun ω => ?_)
    simp only [Pi.sub_apply, Real.norm_eq_abs]
    show |_| ^ 4 = _
    rw [← pow_mul]
    exact Even.pow_abs (by decide) _

/-- the variance of the squared deviations -/
theorem dev_variance (hd : Drawn p beta alpha) : Var[fun ω => (backY p beta alpha (T ω) - (backDoorStats p beta alpha).muY) ^ 2; P] ≤ 10140 := by
  obtain ⟨⟨p0, p1⟩, ⟨b0, b1⟩, ⟨a0, a1⟩⟩ := hd
  have i4 : Integrable (fun ω => ((backY p beta alpha (T ω) - (backDoorStats p beta alpha).muY) ^ 2) ^ 2) P := (memLp_two_iff_integrable_sq (dev_memLp hT hl hv).1).1 (dev_memLp hT hl hv)
  have ig : Integrable (fun ω => (T ω).2.2 ^ 4) P := by
    have := (normal_memLp hT hl 4 (by norm_num)).integrable_norm_pow (by norm_num)
    refine this.congr (Eventually.of_forall fun ω => ?_)
    simp only [Real.norm_eq_abs]
    exact Even.pow_abs (by decide) _
  have im : Integrable (fun ω => (10 * (zx p alpha (T ω)).2 + beta * (zx p alpha (T ω)).1 - (backDoorStats p beta alpha).muY) ^ 2) P :=
    (table_memLp (p := p) (alpha := alpha) hT hl (fun z x => (10 * x + beta * z - (backDoorStats p beta alpha).muY) ^ 2) 1).integrable le_rfl
  have e4 : ∫ ω, (T ω).2.2 ^ 4 ∂P ≤ 4 := by
    have hg : Measurable fun q : ℝ × ℝ × ℝ => q.2.2 := measurable_snd.comp measurable_snd
    have hlaw : P.map (fun ω => (T ω).2.2) = gaussianReal 0 1 := by
      have : (P.map T).map (fun q : ℝ × ℝ × ℝ => q.2.2) = gaussianReal 0 1 := by
        rw [hl]
        unfold unitLaw
        rw [show (fun q : ℝ × ℝ × ℝ => q.2.2) = Prod.snd ∘ Prod.snd from rfl, ← Measure.map_map measurable_snd measurable_snd]
        have h1 := Measure.map_snd_prod (μ := volume.restrict (Set.Ico (0 : ℝ) 1)) (ν := (volume.restrict (Set.Ico (0 : ℝ) 1)).prod (gaussianReal 0 1))
        have h2 := Measure.map_snd_prod (μ := volume.restrict (Set.Ico (0 : ℝ) 1)) (ν := gaussianReal 0 1)
        rw [h1, Measure.map_smul, h2]
        simp
      rwa [Measure.map_map hg hT] at this
    have := gauss_four
    rw [← hlaw, integral_map (φ := fun ω => (T ω).2.2) (f := fun x => x ^ 4) (hg.comp hT).aemeasurable (measurable_id.pow_const 4).aestronglyMeasurable] at this
    exact this
  have e2 : ∫ ω, (10 * (zx p alpha (T ω)).2 + beta * (zx p alpha (T ω)).1 - (backDoorStats p beta alpha).muY) ^ 2 ∂P ≤ 31.75 := by
    rw [table_integral hT hl hv.le.1 hv.le.2 fun z x => (10 * x + beta * z - (backDoorStats p beta alpha).muY) ^ 2]
    have h1 : (1 / 2 + alpha * p) * (1 - (1 / 2 + alpha * p)) ≤ 1 / 4 := by nlinarith [sq_nonneg (alpha * p)]
    have h2 : 0 ≤ p * (1 - p) ∧ p * (1 - p) ≤ 1 / 4 := ⟨by nlinarith, by nlinarith [sq_nonneg (p - 1 / 2)]⟩
    have h3 : beta ^ 2 ≤ 9 := by nlinarith
    have h4 : beta * alpha ≤ 9 / 10 := by nlinarith
    have h5 : beta ^ 2 * (p * (1 - p)) ≤ 9 / 4 := by nlinarith
    have h6 : beta * alpha * (p * (1 - p)) ≤ 9 / 40 := by nlinarith
    simp only [backDoorStats]
    norm_num
    nlinarith
  have hpt : ∀ ω, ((backY p beta alpha (T ω) - (backDoorStats p beta alpha).muY) ^ 2) ^ 2 ≤
      216 / 125 * 169 * (10 * (zx p alpha (T ω)).2 + beta * (zx p alpha (T ω)).1 - (backDoorStats p beta alpha).muY) ^ 2 + 216 * (T ω).2.2 ^ 4 := fun ω => by
    have h1 := four_convex (10 * (zx p alpha (T ω)).2 + beta * (zx p alpha (T ω)).1 - (backDoorStats p beta alpha).muY) (T ω).2.2
    have hb : |10 * (zx p alpha (T ω)).2 + beta * (zx p alpha (T ω)).1 - (backDoorStats p beta alpha).muY| ≤ 13 := by
      simp only [backDoorStats]
      have hp : |alpha * p| ≤ 1 / 2 := by rw [abs_le]; constructor <;> nlinarith
      have h2 : |10 * ((zx p alpha (T ω)).2 - (1 / 2 + alpha * p))| ≤ 10 := by
        rw [abs_le] at hp ⊢
        rcases (zx_cases p alpha (T ω)).2 with h | h <;> rw [h] <;> constructor <;> linarith [hp.1, hp.2]
      have h3 : |beta * ((zx p alpha (T ω)).1 - p)| ≤ 3 := by
        rw [abs_mul]
        have hb : |beta| ≤ 3 := abs_le.2 ⟨b0, b1⟩
        have hz : |(zx p alpha (T ω)).1 - p| ≤ 1 := by
          rw [abs_le]
          rcases (zx_cases p alpha (T ω)).1 with h | h <;> rw [h] <;> constructor <;> linarith
        nlinarith [abs_nonneg beta, abs_nonneg ((zx p alpha (T ω)).1 - p)]
      have := abs_add_le (10 * ((zx p alpha (T ω)).2 - (1 / 2 + alpha * p))) (beta * ((zx p alpha (T ω)).1 - p))
      calc _ = |10 * ((zx p alpha (T ω)).2 - (1 / 2 + alpha * p)) + beta * ((zx p alpha (T ω)).1 - p)| := by congr 1; ring
        _ ≤ 13 := by linarith
    have h2 : (10 * (zx p alpha (T ω)).2 + beta * (zx p alpha (T ω)).1 - (backDoorStats p beta alpha).muY) ^ 2 ≤ 169 := by
      have := sq_le_sq' (by linarith [abs_nonneg (10 * (zx p alpha (T ω)).2 + beta * (zx p alpha (T ω)).1 - (backDoorStats p beta alpha).muY)]) hb
      rw [sq_abs] at this
      linarith
    have h3 : ((backY p beta alpha (T ω) - (backDoorStats p beta alpha).muY) ^ 2) ^ 2 =
        (10 * (zx p alpha (T ω)).2 + beta * (zx p alpha (T ω)).1 - (backDoorStats p beta alpha).muY + (T ω).2.2) ^ 4 := by
      unfold backY
      ring
    rw [h3]
    nlinarith [sq_nonneg (10 * (zx p alpha (T ω)).2 + beta * (zx p alpha (T ω)).1 - (backDoorStats p beta alpha).muY)]
  refine (variance_le_expectation_sq (dev_memLp hT hl hv).1).trans ?_
  refine (integral_mono i4 ((im.const_mul _).add (ig.const_mul _)) hpt).trans ?_
  simp only [Pi.add_apply]
  rw [integral_add (im.const_mul _) (ig.const_mul _), integral_const_mul, integral_const_mul]
  norm_num at e2
  linarith

end
end Example
end Verif
