import Verif.Lemmas.Arms5
import Verif.Spec.ArmsReal
import Mathlib.Analysis.SpecialFunctions.Log.Deriv
import Mathlib.Analysis.SpecialFunctions.Pow.Asymptotics
import Mathlib.Analysis.Complex.ExponentialBounds

/-!
# Intervals over the real numbers
-/

set_option linter.unusedSectionVars false

namespace Verif
namespace Arm
open ExpData ProbabilityTheory Filter Topology
variable {E β W : Type}

theorem fsWidth_eq (g τ m δ : ℝ) (n : ℕ) (ew : Fl ℝ) (hg : 0 < g) (hm : 1 < m) (hδ : 0 < δ) (hn : 0 < n) :
    fsWidth realLib (.fin g) (.fin τ) (.fin m) (.fin δ) n ew =
      if fsInner g m δ n < 0 then .nan else (Fl.fin (fsHalfWidth g τ m δ n)).add ew.sq := by
  have hn' : (0 : ℝ) < n := by exact_mod_cast hn
  have hlam : Fl.maxStep (Fl.fin g) ((Fl.fin 8).mul (Fl.fin g).sq) = Fl.fin (max g (8 * g ^ 2)) := by
    simp only [Fl.maxStep, Fl.sq, Fl.mul, Fl.lt, decide_eq_true_eq, ← pow_two]
    split
    · rw [max_eq_right (by linarith)]
    · rw [max_eq_left (by linarith)]
  have hpos : 0 < max g (8 * g ^ 2) * n / m := by
    have : 0 < max g (8 * g ^ 2) := lt_max_of_lt_left hg
    positivity
  have hlog : realLib.log (((Fl.fin (max g (8 * g ^ 2))).mul (.fin (n : ℝ))).div (.fin m)) =
      .fin (Real.log (max g (8 * g ^ 2) * n / m)) := by
    simp only [Fl.mul, Fl.div, show m ≠ 0 by linarith, if_false, realLib, Fl.realLog, not_lt.mpr hpos.le, hpos.ne']
  have h4 : (0 : ℝ) < 4 / δ := by positivity
  have hlog4 : realLib.log ((Fl.fin 4).div (.fin δ)) = .fin (Real.log (4 / δ)) := by
    simp only [Fl.div, hδ.ne', if_false, realLib, Fl.realLog, not_lt.mpr h4.le, h4.ne']
  have hsq : realLib.sqrt ((Fl.fin 2).mul (Fl.fin g)) = .fin (Real.sqrt (2 * g)) := by
    simp only [Fl.mul, realLib, Fl.realSqrt, not_lt.mpr (by linarith : (0 : ℝ) ≤ 2 * g), if_false]
  have hsn : realLib.sqrt (.fin (n : ℝ)) = .fin (Real.sqrt n) := by
    simp only [realLib, Fl.realSqrt, not_lt.mpr hn'.le, if_false]
  unfold fsWidth
  dsimp only
  rw [hlam, hlog, hlog4, hsq, hsn]
  simp only [Fl.mul, Fl.div, hn'.ne', if_false, Fl.add]
  rw [show realLib.sqrt = Fl.realSqrt from rfl]
  unfold Fl.realSqrt
  show (Fl.mul _ (Fl.div (if fsInner g m δ n < 0 then Fl.nan else Fl.fin (Real.sqrt (fsInner g m δ n))) _)).add _ = _
  by_cases hc : fsInner g m δ n < 0
  · simp only [hc, if_true]
    cases ew <;> rfl
  · simp only [hc, if_false]
    simp only [Fl.div, (Real.sqrt_pos.mpr hn').ne', if_false, Fl.mul]
    rfl

theorem fsInner_nonneg (g m δ : ℝ) (n : ℕ) (hg : 1 / 4 ≤ max g (8 * g ^ 2)) (hm : 1 < m) (hmn : m ≤ n) (hδ : 0 < δ)
    (hδ1 : δ < 1) : 0 ≤ fsInner g m δ n := by
  have hn1 : (1 : ℝ) < n := lt_of_lt_of_le hm hmn
  have hn : (2 : ℝ) ≤ n := by
    have : 1 < n := by exact_mod_cast hn1
    exact_mod_cast this
  have h1 : 1 / 4 ≤ max g (8 * g ^ 2) * n / m := by
    rw [le_div_iff₀ (by linarith)]
    have : 1 / 4 * m ≤ 1 / 4 * (n : ℝ) := by linarith
    have h2 : 1 / 4 * (n : ℝ) ≤ max g (8 * g ^ 2) * n := mul_le_mul_of_nonneg_right hg (by linarith)
    linarith
  have hl1 : Real.log (1 / 4) ≤ Real.log (max g (8 * g ^ 2) * n / m) := Real.log_le_log (by norm_num) h1
  have hl2 : Real.log 4 ≤ Real.log (4 / δ) := Real.log_le_log (by norm_num) (by
    rw [le_div_iff₀ hδ]; linarith)
  have h4 : Real.log (1 / 4) = - Real.log 4 := by rw [one_div, Real.log_inv]
  have hp : 0 ≤ Real.log 4 := Real.log_nonneg (by norm_num)
  have : -Real.log 4 ≤ 2 * Real.log (max g (8 * g ^ 2) * n / m) / n := by
    rw [le_div_iff₀ (by linarith)]
    have : Real.log 4 * 2 ≤ Real.log 4 * n := mul_le_mul_of_nonneg_left hn hp
    nlinarith
  unfold fsInner
  linarith

theorem fsHalfWidth_nonneg (g τ m δ : ℝ) (n : ℕ) (hτ : 0 < τ) : 0 ≤ fsHalfWidth g τ m δ n := by
  unfold fsHalfWidth
  positivity

theorem fsHalfWidth_anti (g τ m : ℝ) (n : ℕ) (hτ : 0 < τ) {δ δ' : ℝ} (hδ : 0 < δ) (h : δ ≤ δ') :
    fsHalfWidth g τ m δ' n ≤ fsHalfWidth g τ m δ n := by
  unfold fsHalfWidth
  have h1 : fsInner g m δ' n ≤ fsInner g m δ n := by
    unfold fsInner
    have : Real.log (4 / δ') ≤ Real.log (4 / δ) :=
      Real.log_le_log (by have := lt_of_lt_of_le hδ h; positivity) (div_le_div_of_nonneg_left (by norm_num) hδ h)
    linarith
  exact mul_le_mul_of_nonneg_left (div_le_div_of_nonneg_right (Real.sqrt_le_sqrt h1) (Real.sqrt_nonneg _)) (by positivity)

theorem fsInner_tendsto (g m δ : ℝ) (hg : 0 < g) (hm : 0 < m) :
    Tendsto (fun n : ℕ => fsInner g m δ n) atTop (𝓝 (1 / 2 + Real.log (4 / δ))) := by
  have hc : 0 < max g (8 * g ^ 2) / m := by
    have : 0 < max g (8 * g ^ 2) := lt_max_of_lt_left hg
    positivity
  -- log n / n → 0
  have hlog : Tendsto (fun n : ℕ => Real.log (n : ℝ) / n) atTop (𝓝 0) := by
    have := Real.isLittleO_log_id_atTop.tendsto_div_nhds_zero
    exact this.comp tendsto_natCast_atTop_atTop
  have hinv : Tendsto (fun n : ℕ => 1 / (n : ℝ)) atTop (𝓝 0) := tendsto_one_div_atTop_nhds_zero_nat
  have h := ((hinv.mul_const (2 * Real.log (max g (8 * g ^ 2) / m))).add (hlog.const_mul 2)).add_const (1 / 2 + Real.log (4 / δ))
  rw [zero_mul, mul_zero, add_zero, zero_add] at h
  refine h.congr' ?_
  filter_upwards [eventually_gt_atTop 0] with n hn
  have hn' : (0 : ℝ) < n := by exact_mod_cast hn
  unfold fsInner
  rw [show max g (8 * g ^ 2) * n / m = max g (8 * g ^ 2) / m * n by ring, Real.log_mul hc.ne' hn'.ne']
  ring

theorem fsHalfWidth_tendsto (g τ m δ : ℝ) (hg : 0 < g) (hm : 0 < m) :
    Tendsto (fun n : ℕ => fsHalfWidth g τ m δ n) atTop (𝓝 0) := by
  have hs : Tendsto (fun n : ℕ => Real.sqrt (fsInner g m δ n)) atTop (𝓝 (Real.sqrt (1 / 2 + Real.log (4 / δ)))) :=
    (fsInner_tendsto g m δ hg hm).sqrt
  have hsn : Tendsto (fun n : ℕ => Real.sqrt (n : ℝ)) atTop atTop :=
    Real.tendsto_sqrt_atTop.comp tendsto_natCast_atTop_atTop
  have := (hs.div_atTop hsn).const_mul (5 / 8 * (Real.sqrt (2 * g) + τ))
  rw [mul_zero] at this
  exact this

/-- a clipped two-sided interval around `v` of non-negative half-widths -/
theorem bracket (v a b : ℝ) (hv : 0 ≤ v) (ha : a ≤ 0) (hb : 0 ≤ b) :
    (Fl.fin 0).le (Fl.maxStep (Fl.fin (v + a)) (.fin 0)) = true ∧
    (Fl.maxStep (Fl.fin (v + a)) (.fin 0)).le (.fin v) = true ∧ (Fl.fin v).le (.fin (v + b)) = true := by
  have h3 : (Fl.fin v).le (.fin (v + b)) = true := by
    simp only [Fl.le, Fl.lt, Fl.eq, Bool.or_eq_true, decide_eq_true_eq]
    rcases hb.eq_or_lt with h | h
    · right; linarith
    · left; linarith
  have hle : ∀ x y : ℝ, x ≤ y → (Fl.fin x).le (.fin y) = true := by
    intro x y h
    simp only [Fl.le, Fl.lt, Fl.eq, Bool.or_eq_true, decide_eq_true_eq]
    exact h.lt_or_eq
  refine ⟨?_, ?_, h3⟩
  · unfold Fl.maxStep
    split
    · exact hle _ _ le_rfl
    · rename_i h
      simp only [Fl.lt, decide_eq_true_eq, not_lt] at h
      exact hle _ _ h
  · unfold Fl.maxStep
    split
    · exact hle _ _ hv
    · exact hle _ _ (by linarith)

end Arm
end Verif
