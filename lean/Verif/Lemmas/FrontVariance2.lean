import Verif.Lemmas.FrontVariance
import Verif.Props.ExampleScm5

/-!
# The variance of the front-door score depends continuously on the parameters of the SCM
-/

namespace Verif
open MeasureTheory ProbabilityTheory Filter Topology
namespace Example

theorem continuous_logistic : Continuous logistic := by
  unfold logistic
  exact continuous_const.div (by fun_prop) fun x => by positivity

section
variable {T : Type} [TopologicalSpace T] {t0 : T}

theorem point_continuousAt {q y : T → ℝ} {mu c : T → ℝ → ℝ → ℝ} {S : Finset ℤ} (hq : ContinuousAt q t0) (q0 : q t0 ≠ 0) (q1 : 1 - q t0 ≠ 0) (hy : ContinuousAt y t0)
    (hmu : ∀ x z, ContinuousAt (fun t => mu t x z) t0) (hc : ∀ x z, ContinuousAt (fun t => c t x z) t0) (x z : ℝ) :
    ContinuousAt (fun t => frontDoorPoint (1 / 20) (q t) (mu t) (c t) S (fun _ => z, x, y t)) t0 := by
  unfold frontDoorPoint clamp
  have h0 : min (max (c t0 x z) (1 / 20)) (1 - 1 / 20) ≠ 0 := by
    have h1 : (1 / 20 : ℝ) ≤ max (c t0 x z) (1 / 20) := le_max_right _ _
    have : (0 : ℝ) < min (max (c t0 x z) (1 / 20)) (1 - 1 / 20) := lt_min (by linarith) (by norm_num)
    exact this.ne'
  have hcl : ∀ x z, ContinuousAt (fun t => min (max (c t x z) (1 / 20)) (1 - 1 / 20 : ℝ)) t0 := fun x z => ((hc x z).max continuousAt_const).min continuousAt_const
  refine ContinuousAt.add (ContinuousAt.add ?_ ?_) (ContinuousAt.mul ?_ (ContinuousAt.sub ?_ ?_))
  · exact (((hy.sub (hmu _ _)).mul ((hcl _ _).sub (hcl _ _)))).div (hcl _ _) h0
  · exact tendsto_finsetSum _ fun a _ => (hmu _ _).mul ((hc _ _).sub (hc _ _))
  · exact (continuousAt_const.div hq q0).sub (continuousAt_const.div (continuousAt_const.sub hq) q1)
  · exact (hq.mul (hmu _ _)).add ((continuousAt_const.sub hq).mul (hmu _ _))
  · exact tendsto_finsetSum _ fun a _ => (((hmu _ _).mul hq).mul (hcl _ _)).add (((hmu _ _).mul (continuousAt_const.sub hq)).mul (hcl _ _))

theorem mean_continuousAt {p beta alpha1 : T → ℝ} {A : T → ℝ → ℝ → ℝ → ℝ} (hp : ContinuousAt p t0) (hb : ContinuousAt beta t0) (h1 : ContinuousAt alpha1 t0)
    (hA : ∀ u x z, ContinuousAt (fun t => A t u x z) t0) : ContinuousAt (fun t => frontMean (p t) (beta t) (alpha1 t) (A t)) t0 := by
  have lb := continuous_logistic.continuousAt.comp hb
  have la := continuous_logistic.continuousAt.comp h1
  simp only [Function.comp_def] at la lb
  unfold frontMean
  have := hA 1 1 1
  have := hA 1 1 0
  have := hA 1 0 1
  have := hA 1 0 0
  have := hA 0 1 1
  have := hA 0 1 0
  have := hA 0 0 1
  have := hA 0 0 0
  fun_prop

theorem variance_continuousAt {p beta gamma alpha1 alpha2 : T → ℝ} {mu : T → ℝ → ℝ → ℝ} (hp : ContinuousAt p t0) (hb : ContinuousAt beta t0) (hg : ContinuousAt gamma t0) (h1 : ContinuousAt alpha1 t0)
    (h2 : ContinuousAt alpha2 t0) (hmu : ∀ x z, ContinuousAt (fun t => mu t x z) t0) (p0 : 0 < p t0 ∧ p t0 < 1) :
    ContinuousAt (fun t => frontVariance (p t) (beta t) (gamma t) (alpha1 t) (alpha2 t) (mu t)) t0 := by
  have lb := continuous_logistic.continuousAt.comp hb
  have la := continuous_logistic.continuousAt.comp h1
  simp only [Function.comp_def] at la lb
  have e : 0 < logistic (alpha1 t0) ∧ logistic (alpha1 t0) < 1 := by
    unfold logistic
    have := Real.exp_pos (-alpha1 t0)
    exact ⟨by positivity, by rw [div_lt_one (by linarith)]; linarith⟩
  have hs : ∀ u x z n, ContinuousAt (fun t => frontScore (p t) (beta t) (gamma t) (alpha1 t) (alpha2 t) (mu t) u x z n) t0 := by
    intro u x z n
    unfold frontScore
    refine point_continuousAt (q := fun t => p t * logistic (alpha1 t) + (1 - p t) / 2) (y := fun t => gamma t * z + alpha2 t * u + n) (c := fun t => frontCond (beta t)) (by fun_prop) ?_ ?_ (by fun_prop) hmu ?_ x z
    · have : 0 < p t0 * logistic (alpha1 t0) + (1 - p t0) / 2 := by nlinarith
      exact this.ne'
    · have : 0 < 1 - (p t0 * logistic (alpha1 t0) + (1 - p t0) / 2) := by nlinarith
      exact this.ne'
    · intro x z
      unfold frontCond
      split
      · split
        · exact lb
        · exact continuousAt_const.sub lb
      · exact continuousAt_const
  unfold frontVariance
  refine ContinuousAt.sub (mean_continuousAt hp hb h1 fun u x z => ?_) ((mean_continuousAt hp hb h1 fun u x z => hs u x z 0).pow 2)
  exact ((hs u x z 0).pow 2).add (((hs u x z 1).sub (hs u x z 0)).pow 2)

end
end Example
end Verif
