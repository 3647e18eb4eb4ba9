import Verif.Lemmas.DataTest
import Verif.Props.ParametersTest

/-!
# Property C106: what the project's tests of the example SCMs accept
-/

set_option linter.unusedSectionVars false
set_option linter.unusedSimpArgs false

namespace Verif
namespace DataTest
open MeasureTheory ProbabilityTheory Filter Topology Example ParametersTest Section5
variable {V Ω : Type}

/-! ## The data of the back-door example -/

section
variable {U G : ℕ → Ω → ℝ} {a b c p beta alpha : ℝ}

/-- the values of `f` at the units of the test -/
noncomputable def sample (U G : ℕ → Ω → ℝ) (n : ℕ) (ω : Ω) (f : ℝ × ℝ × ℝ → ℝ) : List ℝ := (List.range n).map fun k => f (numbersOf U G n k ω)

theorem mean_sample (n : ℕ) (ω : Ω) (f : ℝ × ℝ × ℝ → ℝ) : mean (sample U G n ω f) = empMean f (numbersOf U G n) n ω := rfl

theorem sample_ne {n : ℕ} (hn : 0 < n) (ω : Ω) (f : ℝ × ℝ × ℝ → ℝ) : sample U G n ω f ≠ [] := by
  unfold sample
  rw [ne_eq, List.map_eq_nil_iff, List.range_eq_nil]
  omega

theorem sample_map (n : ℕ) (ω : Ω) (f : ℝ × ℝ × ℝ → ℝ) (g : ℝ → ℝ) : (sample U G n ω f).map g = sample U G n ω fun q => g (f q) := by
  simp [sample, Function.comp_def]

/-- the assertions of the test for the back-door example -/
noncomputable def backBool (p beta alpha : ℝ) (n : ℕ) (xs zs ys : List ℝ) : Bool :=
  decide ((backDoorStats p beta alpha).tau = 10)
    && close (mean xs) (backDoorStats p beta alpha).muX (mean (ys.map fun y => y ^ 2) / Real.sqrt n) 0
    && close (mean ys) (backDoorStats p beta alpha).muY (mean (ys.map fun y => y ^ 2) / Real.sqrt n) 0
    && close (mean zs) (backDoorStats p beta alpha).muZ (mean (ys.map fun y => y ^ 2) / Real.sqrt n) 0
    && close (var xs) (backDoorStats p beta alpha).varX (1 / 10 ^ 7) (mean (ys.map fun y => y ^ 2) / Real.sqrt n * (backDoorStats p beta alpha).varX)
    && close (var zs) (backDoorStats p beta alpha).varZ (1 / 10 ^ 7) (mean (ys.map fun y => y ^ 2) / Real.sqrt n * (backDoorStats p beta alpha).varZ)
    && close (var ys) (backDoorStats p beta alpha).varY (1 / 10 ^ 7) (2 * (mean (ys.map fun y => y ^ 2) / Real.sqrt n) * (backDoorStats p beta alpha).varY)

theorem testBackDoor_start (hp : p = 1 / 5 + 3 / 5 * a) (hb : beta = 10 * (-(3 / 10) + 3 / 5 * b)) (ha : alpha = -(3 / 10) + 3 / 5 * c) (hv : Valid p alpha) (v0 : V) (n : ℕ) (ω : Ω) :
    (testBackDoor Numbers.gen n (Numbers.start [a, b, c] (fun i => U i ω) (fun i => G i ω) v0)).1 =
      .ok (backBool p beta alpha n (sample U G n ω fun q => (zx p alpha q).2) (sample U G n ω fun q => (zx p alpha q).1) (sample U G n ω (backY p beta alpha))) := by
  obtain ⟨S, hS, -⟩ := C65_backdoor_sampler (Numbers.gen (V := V)) p beta alpha hv.le.1 hv.le.2
  have hg := generate_back hv.le.1 hv.le.2 hS n { Numbers.start [a, b, c] (fun i => U i ω) (fun i => G i ω) v0 with i := 3 }
  have hu : ((List.range n).map fun i => backUnit p beta alpha (followedBy [a, b, c] (fun i => U i ω) (3 + i), followedBy [a, b, c] (fun i => U i ω) (3 + n + i), G (0 + i) ω)) =
      (List.range n).map fun i => backUnit p beta alpha (numbersOf U G n i ω) := by
    refine List.map_congr_left fun i hi => ?_
    rw [Nat.zero_add]
    exact congrArg _ (back_numbers_at n i (List.mem_range.1 hi) ω [a, b, c])
  unfold testBackDoor
  erw [Py.bind_apply]
  rw [backDoor_start, ← hp, ← hb, ← ha, hS]
  simp only [Except.map]
  rw [Py.bind_apply, hg]
  simp only [Numbers.start]
  rw [hu]
  have e1 : numbers (Obs.dataset 1 ((List.range n).map fun i => backUnit p beta alpha (numbersOf U G n i ω))).exp = .ok (sample U G n ω fun q => (zx p alpha q).2) := by
    simp only [numbers, Obs.dataset, ExpData.new, List.map_map, sample]
    refine congrArg Except.ok (List.map_congr_left fun i _ => ?_)
    exact trunc_bit _ _
  have e2 : numbers (Obs.dataset 1 ((List.range n).map fun i => backUnit p beta alpha (numbersOf U G n i ω))).rsp = .ok (sample U G n ω (backY p beta alpha)) := by
    simp only [numbers, Obs.dataset, ExpData.new, List.map_map, sample]
    rfl
  have e3 : entries (Obs.dataset 1 ((List.range n).map fun i => backUnit p beta alpha (numbersOf U G n i ω))) = .ok (sample U G n ω fun q => (zx p alpha q).1) := by
    simp only [entries, Obs.dataset, ExpData.new, List.map_map, sample]
    refine congrArg Except.ok ?_
    have : ∀ l : List ℕ, ((l.map (Obs.z ∘ fun i => backUnit p beta alpha (numbersOf U G n i ω))).flatten).map Cell.val = l.map fun k => (zx p alpha (numbersOf U G n k ω)).1 := by
      intro l
      induction l with
      | nil => rfl
      | cons k l ih =>
        rw [List.map_cons, List.flatten_cons, List.map_append, ih]
        show Cell.val (Cell.int (trunc (bZ p _))) :: _ = _
        rw [List.map_cons]
        exact congrArg (· :: _) (trunc_bit _ _)
    exact this _
  simp only [Py.lift, backDoorChecks, e1, e2, e3]
  rfl

end

section
variable [MeasurableSpace Ω] {P : Measure Ω} [IsProbabilityMeasure P] {U G : ℕ → Ω → ℝ} {a b c p beta alpha : ℝ}

theorem drawn_of (hp : p = 1 / 5 + 3 / 5 * a) (hb : beta = 10 * (-(3 / 10) + 3 / 5 * b)) (hal : alpha = -(3 / 10) + 3 / 5 * c) (ha : a ∈ Set.Ico (0 : ℝ) 1) (hb' : b ∈ Set.Ico (0 : ℝ) 1)
    (hc : c ∈ Set.Ico (0 : ℝ) 1) : Drawn p beta alpha where
  p := by rw [hp]; exact ⟨by linarith [ha.1], by linarith [ha.2]⟩
  beta := by rw [hb]; exact ⟨by linarith [hb'.1], by linarith [hb'.2]⟩
  alpha := by rw [hal]; exact ⟨by linarith [hc.1], by linarith [hc.2]⟩

/-- numerical bounds -/
theorem stats_bounds (hd : Drawn p beta alpha) : |(backDoorStats p beta alpha).muY| ≤ 10 ∧ 0 ≤ (backDoorStats p beta alpha).varY ∧ (backDoorStats p beta alpha).varY ≤ 29 ∧
    (backDoorStats p beta alpha).varY + backCross p beta alpha ≤ 33 ∧ 18 ≤ (backDoorStats p beta alpha).varY + backCross p beta alpha := by
  obtain ⟨⟨p0, p1⟩, ⟨b0, b1⟩, ⟨a0, a1⟩⟩ := hd
  have hx : |alpha * p| ≤ 6 / 25 := by rw [abs_le]; constructor <;> nlinarith
  rw [abs_le] at hx
  have h1 : (1 / 2 + alpha * p) * (1 - (1 / 2 + alpha * p)) ≤ 1 / 4 := by nlinarith [sq_nonneg (alpha * p)]
  have h1' : 0 ≤ (1 / 2 + alpha * p) * (1 - (1 / 2 + alpha * p)) := mul_nonneg (by linarith) (by linarith)
  have h2 : 0 ≤ p * (1 - p) ∧ p * (1 - p) ≤ 1 / 4 := ⟨by nlinarith, by nlinarith [sq_nonneg (p - 1 / 2)]⟩
  have h3 : beta ^ 2 ≤ 9 := by nlinarith
  have h4 : beta * alpha ≤ 9 / 10 := by nlinarith
  have h5 : beta ^ 2 * (p * (1 - p)) ≤ 9 / 4 := by nlinarith
  have h5' : 0 ≤ beta ^ 2 * (p * (1 - p)) := mul_nonneg (sq_nonneg _) h2.1
  have h6 : beta * alpha * (p * (1 - p)) ≤ 9 / 40 := by nlinarith
  have hbp : |beta * p| ≤ 12 / 5 := by rw [abs_le]; constructor <;> nlinarith
  rw [abs_le] at hbp
  simp only [backDoorStats, backCross]
  refine ⟨abs_le.2 ⟨by linarith, by linarith⟩, by nlinarith, by nlinarith, by nlinarith, ?_⟩
  -- conditional variance: `1 + 100 (1/4 - alpha² p) + p (1 - p) (10 alpha + beta)²`
  have h7 : 0 ≤ p * (1 - p) * (10 * alpha + beta) ^ 2 := mul_nonneg h2.1 (sq_nonneg _)
  have h8 : alpha ^ 2 * p ≤ 9 / 125 := by nlinarith [sq_nonneg alpha]
  nlinarith

/-- The mean of the responses and the mean of their squared deviations are near their expected values, with a probability given by Chebyshev's inequality. -/
theorem back_far (hN : RandomNumbers P U G) (hv : Valid p alpha) (hd : Drawn p beta alpha) {n : ℕ} (hn : 0 < n) {ε1 ε2 : ℝ} (h1 : 0 < ε1) (h2 : 0 < ε2) :
    P {ω | ε1 ≤ |mean (sample U G n ω (backY p beta alpha)) - (backDoorStats p beta alpha).muY|} ≤ ENNReal.ofReal (33 / n / ε1 ^ 2) ∧
    P {ω | ε2 ≤ |mean ((sample U G n ω (backY p beta alpha)).map fun y => (y - (backDoorStats p beta alpha).muY) ^ 2) -
      ((backDoorStats p beta alpha).varY + backCross p beta alpha)|} ≤ ENNReal.ofReal (10140 / n / ε2 ^ 2) := by
  have hT := numbersOf_measurable hN n 0
  have hL := numbersOf_law hN hn 0
  constructor
  · have := empMean_far (numbersOf_iid hN hn) (g := backY p beta alpha) measurable_backY (backY_memLp hT hL hv 2 (by simp)) hn h1
    rw [backY_mean hT hL hv, backY_variance hT hL hv] at this
    refine this.trans (ENNReal.ofReal_le_ofReal ?_)
    have := (stats_bounds hd).2.2.2.1
    gcongr
  · have := empMean_far (numbersOf_iid hN hn) (g := fun q => (backY p beta alpha q - (backDoorStats p beta alpha).muY) ^ 2) ((measurable_backY.sub_const _).pow_const 2)
      (dev_memLp hT hL hv) hn h2
    rw [dev_mean hT hL hv] at this
    simp only [sample_map, mean_sample]
    refine this.trans (ENNReal.ofReal_le_ofReal ?_)
    have := dev_variance hT hL hv hd
    gcongr

/-- the probability of passing for given deviations of the means -/
theorem back_fail_bound (hN : RandomNumbers P U G) (ha : a ∈ Set.Ico (0 : ℝ) 1) (hb : b ∈ Set.Ico (0 : ℝ) 1) (hc : c ∈ Set.Ico (0 : ℝ) 1)
    (hp : p = 1 / 5 + 3 / 5 * a) (hbeta : beta = 10 * (-(3 / 10) + 3 / 5 * b)) (halpha : alpha = -(3 / 10) + 3 / 5 * c) {n : ℕ} (hn : 0 < n) {ε1 ε2 : ℝ} (h1 : 0 < ε1) (h1' : ε1 ≤ 1 / 10)
    (h2 : 0 < ε2) (h2' : ε2 ≤ 2 / 5)
    (hcross : 2 * ((backSecond p beta alpha + 3) / Real.sqrt n) * (backDoorStats p beta alpha).varY + (backDoorStats p beta alpha).varY / 10 ^ 7 + ε2 + ε1 ^ 2 < |backCross p beta alpha|) (v0 : V) :
    P {ω | (testBackDoor Numbers.gen n (Numbers.start [a, b, c] (fun i => U i ω) (fun i => G i ω) v0)).1 = .ok true} ≤ ENNReal.ofReal (33 / n / ε1 ^ 2) + ENNReal.ofReal (10140 / n / ε2 ^ 2) := by
  have hv : Valid p alpha := by rw [hp, halpha]; exact valid_of_draws ha hc
  have hd := drawn_of hp hbeta halpha ha hb hc
  obtain ⟨s1, s2, s3, s4, s5⟩ := stats_bounds hd
  obtain ⟨f1, f2⟩ := back_far hN hv hd hn h1 h2
  have hn' : (0 : ℝ) < n := by exact_mod_cast hn
  refine (measure_mono (t := _ ∪ _) fun ω hω => ?_).trans ((measure_union_le _ _).trans (add_le_add f1 f2))
  rw [Set.mem_ofPred_eq, testBackDoor_start hp hbeta halpha hv, Except.ok.injEq, backBool, Bool.and_eq_true, close_iff] at hω
  have hω := hω.2
  by_contra hcon
  simp only [Set.mem_union, Set.mem_ofPred_eq, not_or, not_le] at hcon
  obtain ⟨c1, c2⟩ := hcon
  have hne := sample_ne (U := U) (G := G) hn ω (backY p beta alpha)
  rw [var_eq _ hne (backDoorStats p beta alpha).muY, square_eq _ hne (backDoorStats p beta alpha).muY] at hω
  set m1 := mean (sample U G n ω (backY p beta alpha))
  set m2 := mean ((sample U G n ω (backY p beta alpha)).map fun y => (y - (backDoorStats p beta alpha).muY) ^ 2)
  set μ := (backDoorStats p beta alpha).muY
  set v := (backDoorStats p beta alpha).varY
  set k := backCross p beta alpha
  have hM : m2 + 2 * μ * (m1 - μ) + μ ^ 2 ≤ backSecond p beta alpha + 3 := by
    have h1 : μ * (m1 - μ) ≤ 1 := by
      refine (le_abs_self _).trans ?_
      rw [abs_mul]
      nlinarith [abs_nonneg μ, abs_nonneg (m1 - μ)]
    have h2 := (abs_lt.1 c2).2
    have : backSecond p beta alpha = v + k + μ ^ 2 := rfl
    linarith
  have htol : 2 * ((m2 + 2 * μ * (m1 - μ) + μ ^ 2) / Real.sqrt n) * v ≤ 2 * ((backSecond p beta alpha + 3) / Real.sqrt n) * v := by
    gcongr
  have hsq : (m1 - μ) ^ 2 < ε1 ^ 2 := sq_lt_sq' (by linarith [(abs_lt.1 c1).1]) (abs_lt.1 c1).2
  have hvar : |k| ≤ |m2 - (m1 - μ) ^ 2 - v| + |m2 - (v + k)| + (m1 - μ) ^ 2 := by
    have : k = (m2 - (m1 - μ) ^ 2 - v) - (m2 - (v + k)) + (m1 - μ) ^ 2 := by ring
    conv_lhs => rw [this]
    refine (abs_add_le _ _).trans ?_
    have h1 := abs_sub (m2 - (m1 - μ) ^ 2 - v) (m2 - (v + k))
    rw [abs_of_nonneg (sq_nonneg (m1 - μ))]
    linarith
  rw [abs_of_nonneg s2] at hω
  linarith

/-- **C106** If the covariance term that `var_y` lacks is larger than the tolerance of the last assertion, up to the stated margins, `test_scm_back_door_statistics` with `n` units passes at most with
probability `70000 / n` (7 % for the 1000000 units of the test). -/
theorem C106_back_door_fails (hN : RandomNumbers P U G) (ha : a ∈ Set.Ico (0 : ℝ) 1) (hb : b ∈ Set.Ico (0 : ℝ) 1) (hc : c ∈ Set.Ico (0 : ℝ) 1)
    (hp : p = 1 / 5 + 3 / 5 * a) (hbeta : beta = 10 * (-(3 / 10) + 3 / 5 * b)) (halpha : alpha = -(3 / 10) + 3 / 5 * c) {n : ℕ} (hn : 0 < n)
    (hcross : 2 * ((backSecond p beta alpha + 3) / Real.sqrt n) * (backDoorStats p beta alpha).varY + 1 / 2 < |backCross p beta alpha|) (v0 : V) :
    P {ω | (testBackDoor Numbers.gen n (Numbers.start [a, b, c] (fun i => U i ω) (fun i => G i ω) v0)).1 = .ok true} ≤ ENNReal.ofReal (70000 / n) := by
  have s3 := (stats_bounds (drawn_of hp hbeta halpha ha hb hc)).2.2.1
  have hn' : (0 : ℝ) < n := by exact_mod_cast hn
  refine (back_fail_bound hN ha hb hc hp hbeta halpha hn (show (0 : ℝ) < 1 / 10 by norm_num) le_rfl (show (0 : ℝ) < 2 / 5 by norm_num) le_rfl (by linarith) v0).trans ?_
  rw [← ENNReal.ofReal_add (by positivity) (by positivity)]
  refine ENNReal.ofReal_le_ofReal ?_
  rw [div_div, div_div, ← sub_nonneg]
  have : 70000 / (n : ℝ) - (33 / (n * (1 / 10) ^ 2) + 10140 / (n * (2 / 5) ^ 2)) = (70000 - 3300 - 63375) / n := by field_simp; norm_num
  rw [this]
  positivity

/-- **C106** For all drawn parameters for which the covariance term that `var_y` lacks is more than the relative tolerance `1e-7`, the probability that `test_scm_back_door_statistics` passes tends to 0
with the number of units: the test passes because its tolerance is wide, not because the statistics are right. -/
theorem C106_back_door_limit (hN : RandomNumbers P U G) (ha : a ∈ Set.Ico (0 : ℝ) 1) (hb : b ∈ Set.Ico (0 : ℝ) 1) (hc : c ∈ Set.Ico (0 : ℝ) 1)
    (hp : p = 1 / 5 + 3 / 5 * a) (hbeta : beta = 10 * (-(3 / 10) + 3 / 5 * b)) (halpha : alpha = -(3 / 10) + 3 / 5 * c)
    (hcross : (backDoorStats p beta alpha).varY / 10 ^ 7 < |backCross p beta alpha|) (v0 : V) :
    Tendsto (fun n => P {ω | (testBackDoor Numbers.gen n (Numbers.start [a, b, c] (fun i => U i ω) (fun i => G i ω) v0)).1 = .ok true}) atTop (𝓝 0) := by
  obtain ⟨ε, hε, h1, hlt⟩ : ∃ ε : ℝ, 0 < ε ∧ ε ≤ 1 / 10 ∧ (backDoorStats p beta alpha).varY / 10 ^ 7 + ε + ε ^ 2 < |backCross p beta alpha| := by
    refine ⟨min (1 / 10) ((|backCross p beta alpha| - (backDoorStats p beta alpha).varY / 10 ^ 7) / 2), lt_min (by norm_num) (by linarith), min_le_left _ _, ?_⟩
    have h1 := min_le_left (1 / 10 : ℝ) ((|backCross p beta alpha| - (backDoorStats p beta alpha).varY / 10 ^ 7) / 2)
    have h2 := min_le_right (1 / 10 : ℝ) ((|backCross p beta alpha| - (backDoorStats p beta alpha).varY / 10 ^ 7) / 2)
    have h3 : 0 < min (1 / 10 : ℝ) ((|backCross p beta alpha| - (backDoorStats p beta alpha).varY / 10 ^ 7) / 2) := lt_min (by norm_num) (by linarith)
    nlinarith
  have hs : Tendsto (fun n : ℕ => Real.sqrt (n : ℝ)) atTop atTop := Real.tendsto_sqrt_atTop.comp tendsto_natCast_atTop_atTop
  have hev : ∀ᶠ n : ℕ in atTop, 2 * ((backSecond p beta alpha + 3) / Real.sqrt n) * (backDoorStats p beta alpha).varY + (backDoorStats p beta alpha).varY / 10 ^ 7 + ε + ε ^ 2 < |backCross p beta alpha| := by
    have h : Tendsto (fun n : ℕ => 2 * ((backSecond p beta alpha + 3) / Real.sqrt n) * (backDoorStats p beta alpha).varY + (backDoorStats p beta alpha).varY / 10 ^ 7 + ε + ε ^ 2) atTop
        (𝓝 (2 * 0 * (backDoorStats p beta alpha).varY + (backDoorStats p beta alpha).varY / 10 ^ 7 + ε + ε ^ 2)) :=
      ((((hs.const_div_atTop _).const_mul 2).mul_const _).add_const _ |>.add_const _).add_const _
    exact h.eventually (gt_mem_nhds (by linarith))
  have hlim : Tendsto (fun n : ℕ => ENNReal.ofReal (33 / n / ε ^ 2) + ENNReal.ofReal (10140 / n / ε ^ 2)) atTop (𝓝 0) := by
    have h : ∀ k : ℝ, Tendsto (fun n : ℕ => ENNReal.ofReal (k / n / ε ^ 2)) atTop (𝓝 0) := fun k => by
      have h1 : Tendsto (fun n : ℕ => k / n / ε ^ 2) atTop (𝓝 (0 / ε ^ 2)) := (tendsto_const_div_atTop_nhds_zero_nat k).div_const _
      rw [zero_div] at h1
      rw [← ENNReal.ofReal_zero]
      exact ENNReal.tendsto_ofReal h1
    have := (h 33).add (h 10140)
    rwa [add_zero] at this
  refine tendsto_of_tendsto_of_tendsto_of_le_of_le' tendsto_const_nhds hlim (Eventually.of_forall fun _ => bot_le) ?_
  filter_upwards [hev, eventually_gt_atTop 0] with n h hn
  exact back_fail_bound hN ha hb hc hp hbeta halpha hn hε h1 hε (by linarith) h v0

/-- the deviation of `m (1 - m)` is at most that of `m` -/
theorem binary_close {m p : ℝ} (h0 : 0 ≤ m) (h1 : m ≤ 1) (h2 : 0 ≤ p) (h3 : p ≤ 1) : |m * (1 - m) - p * (1 - p)| ≤ |m - p| := by
  rw [show m * (1 - m) - p * (1 - p) = (m - p) * (1 - m - p) by ring, abs_mul]
  have : |1 - m - p| ≤ 1 := abs_le.2 ⟨by linarith, by linarith⟩
  nlinarith [abs_nonneg (m - p)]

theorem var_near {m1 m2 μ v k : ℝ} (c1 : |m1 - μ| < 3 / 100) (c2 : |m2 - (v + k)| < 2 / 5) : |m2 - (m1 - μ) ^ 2 - v| ≤ |k| + 2 / 5 + 9 / 10000 := by
  rw [show m2 - (m1 - μ) ^ 2 - v = k + (m2 - (v + k)) - (m1 - μ) ^ 2 by ring]
  have h2 := abs_sub (k + (m2 - (v + k))) ((m1 - μ) ^ 2)
  have h3 := abs_add_le k (m2 - (v + k))
  rw [abs_of_nonneg (sq_nonneg (m1 - μ))] at h2
  obtain ⟨c11, c12⟩ := abs_lt.1 c1
  have h4 : (m1 - μ) ^ 2 ≤ 9 / 10000 := by nlinarith
  linarith

/-- The assertions hold for 1000000 units whose means are near the expected values. -/
theorem backBool_of_near (hd : Drawn p beta alpha) (hmu : 2 ≤ (backDoorStats p beta alpha).muY)
    (hcross : |backCross p beta alpha| + 1 / 2 ≤ 2 * ((backSecond p beta alpha - 3) / 1000) * (backDoorStats p beta alpha).varY) {xs zs ys : List ℝ}
    (hx : xs ≠ []) (hz : zs ≠ []) (hy : ys ≠ []) (bx : ∀ x ∈ xs, x = 0 ∨ x = 1) (bz : ∀ z ∈ zs, z = 0 ∨ z = 1) (c1 : |mean ys - (backDoorStats p beta alpha).muY| < 3 / 100)
    (c2 : |mean (ys.map fun y => (y - (backDoorStats p beta alpha).muY) ^ 2) - ((backDoorStats p beta alpha).varY + backCross p beta alpha)| < 2 / 5)
    (c3 : |mean zs - (backDoorStats p beta alpha).muZ| < 1 / 400) (c4 : |mean xs - (backDoorStats p beta alpha).muX| < 1 / 400) :
    backBool p beta alpha 1000000 xs zs ys = true := by
  obtain ⟨s1, s2, s3, s4, s5⟩ := stats_bounds hd
  obtain ⟨⟨p0, p1⟩, ⟨b0, b1⟩, ⟨a0, a1⟩⟩ := hd
  have hx' : -(6 / 25) ≤ alpha * p ∧ alpha * p ≤ 6 / 25 := by constructor <;> nlinarith
  obtain ⟨r11, r12⟩ := mean_binary _ hz bz
  obtain ⟨r21, r22⟩ := mean_binary _ hx bx
  have hsqrt : Real.sqrt ((1000000 : ℕ) : ℝ) = 1000 := by
    rw [show ((1000000 : ℕ) : ℝ) = 1000 ^ 2 by norm_num, Real.sqrt_sq (by norm_num)]
  have t0 : (backDoorStats p beta alpha).tau = 10 := rfl
  have tz : (backDoorStats p beta alpha).muZ = p := rfl
  have tx : (backDoorStats p beta alpha).muX = 1 / 2 + alpha * p := rfl
  have tvz : (backDoorStats p beta alpha).varZ = p * (1 - p) := rfl
  have tvx : (backDoorStats p beta alpha).varX = (1 / 2 + alpha * p) * (1 - (1 / 2 + alpha * p)) := rfl
  have hBS : backSecond p beta alpha = (backDoorStats p beta alpha).varY + backCross p beta alpha + (backDoorStats p beta alpha).muY ^ 2 := rfl
  rw [tz] at c3
  rw [tx] at c4
  unfold backBool
  rw [var_eq _ hy (backDoorStats p beta alpha).muY, square_eq _ hy (backDoorStats p beta alpha).muY, var_binary _ hz bz, var_binary _ hx bx, hsqrt]
  simp only [Bool.and_eq_true, close_iff, decide_eq_true_eq, t0, tz, tx, tvz, tvx]
  generalize mean (ys.map fun y => (y - (backDoorStats p beta alpha).muY) ^ 2) = m2 at *
  generalize mean ys = m1 at *
  generalize mean zs = mz at *
  generalize mean xs = mx at *
  generalize (backDoorStats p beta alpha).muY = μ at *
  generalize (backDoorStats p beta alpha).varY = v at *
  generalize backCross p beta alpha = k at *
  generalize backSecond p beta alpha = B at *
  clear t0 tz tx tvz tvx
  obtain ⟨c11, c12⟩ := abs_lt.1 c1
  obtain ⟨c21, c22⟩ := abs_lt.1 c2
  have hz3 := binary_close r11 r12 (by linarith : 0 ≤ p) (by linarith)
  have hx3 := binary_close r21 r22 (by linarith : 0 ≤ 1 / 2 + alpha * p) (by linarith)
  have q1 : 4 / 25 ≤ p * (1 - p) := by nlinarith
  have hM : B - 3 ≤ m2 + 2 * μ * (m1 - μ) + μ ^ 2 := by
    have h1 : -1 ≤ μ * (m1 - μ) := by
      refine le_trans ?_ (neg_abs_le _)
      rw [abs_mul]
      nlinarith [abs_nonneg μ, abs_nonneg (m1 - μ)]
    linarith
  have hB : 19 ≤ B := by
    rw [hBS]
    nlinarith
  obtain ⟨t, ht⟩ : ∃ t, t = (m2 + 2 * μ * (m1 - μ) + μ ^ 2) / 1000 := ⟨_, rfl⟩
  rw [← ht]
  have ht1 : (B - 3) / 1000 ≤ t := by rw [ht]; gcongr
  have ht2 : 4 / 250 ≤ t := le_trans (by linarith) ht1
  have hxp : |1 / 2 + alpha * p| = 1 / 2 + alpha * p := abs_of_nonneg (by linarith)
  have hzp : |p| = p := abs_of_nonneg (by linarith)
  generalize hq : 1 / 2 + alpha * p = q at *
  have q2 : 4 / 25 ≤ q * (1 - q) := by nlinarith
  have q3 : 13 / 50 ≤ q := by linarith
  clear hx' hq a0 a1 b0 b1 hBS
  have k1 : 0 ≤ (t - 4 / 250) * (q - 13 / 50) := mul_nonneg (by linarith) (by linarith)
  have k2 : 0 ≤ (t - 4 / 250) * (μ - 2) := mul_nonneg (by linarith) (by linarith)
  have k3 : 0 ≤ (t - 4 / 250) * (p - 1 / 5) := mul_nonneg (by linarith) (by linarith)
  have k4 : 0 ≤ (t - 4 / 250) * (q * (1 - q) - 4 / 25) := mul_nonneg (by linarith) (by linarith)
  have k5 : 0 ≤ (t - 4 / 250) * (p * (1 - p) - 4 / 25) := mul_nonneg (by linarith) (by linarith)
  refine ⟨⟨⟨⟨⟨⟨trivial, ?_⟩, ?_⟩, ?_⟩, ?_⟩, ?_⟩, ?_⟩
  · rw [hxp]
    linarith only [c4, k1, q3, ht2]
  · rw [abs_of_nonneg (by linarith : 0 ≤ μ)]
    linarith only [c1, k2, hmu, ht2]
  · rw [hzp]
    linarith only [c3, k3, p0, ht2]
  · have := abs_nonneg (q * (1 - q))
    linarith only [this, hx3, c4, k4, q2, ht2]
  · have := abs_nonneg (p * (1 - p))
    linarith only [this, hz3, c3, k5, q1, ht2]
  · have h1 := var_near c1 c2
    have h2 : 2 * ((B - 3) / 1000) * v ≤ 2 * t * v := by gcongr
    have := abs_nonneg v
    linarith only [h1, h2, this, hcross]

/-- **C106** If the covariance term that `var_y` lacks is smaller than the tolerance of the last assertion, up to the stated margins, and the mean response is at least 2,
`test_scm_back_door_statistics` with 1000000 units fails at most with probability 1/5. -/
theorem C106_back_door_passes (hN : RandomNumbers P U G) (ha : a ∈ Set.Ico (0 : ℝ) 1) (hb : b ∈ Set.Ico (0 : ℝ) 1) (hc : c ∈ Set.Ico (0 : ℝ) 1)
    (hp : p = 1 / 5 + 3 / 5 * a) (hbeta : beta = 10 * (-(3 / 10) + 3 / 5 * b)) (halpha : alpha = -(3 / 10) + 3 / 5 * c) (hmu : 2 ≤ (backDoorStats p beta alpha).muY)
    (hcross : |backCross p beta alpha| + 1 / 2 ≤ 2 * ((backSecond p beta alpha - 3) / 1000) * (backDoorStats p beta alpha).varY) (v0 : V) :
    P {ω | (testBackDoor Numbers.gen 1000000 (Numbers.start [a, b, c] (fun i => U i ω) (fun i => G i ω) v0)).1 ≠ .ok true} ≤ ENNReal.ofReal (1 / 5) := by
  have hv : Valid p alpha := by rw [hp, halpha]; exact valid_of_draws ha hc
  have hd := drawn_of hp hbeta halpha ha hb hc
  have hn : 0 < 1000000 := by norm_num
  obtain ⟨f1, f2⟩ := back_far hN hv hd hn (show (0 : ℝ) < 3 / 100 by norm_num) (show (0 : ℝ) < 2 / 5 by norm_num)
  have hT := numbersOf_measurable hN 1000000 0
  have hL := numbersOf_law hN hn 0
  have f3 : P {ω | 1 / 400 ≤ |mean (sample U G 1000000 ω fun q => (zx p alpha q).1) - (backDoorStats p beta alpha).muZ|} ≤ ENNReal.ofReal (1 / 4 / 1000000 / (1 / 400) ^ 2) := by
    have := empMean_far (numbersOf_iid hN hn) (g := fun q => (zx p alpha q).1) (measurable_fst.comp (measurable_zx p alpha)) (table_memLp hT hL (fun z _ => z) 2) hn
      (show (0 : ℝ) < 1 / 400 by norm_num)
    obtain ⟨m1, m2⟩ := affine_moments hT hL hv (f := fun ω => (zx p alpha (numbersOf U G 1000000 0 ω)).1) (fun z _ => z) (fun _ _ => 0) fun ω => by simp
    rw [m1, m2] at this
    rw [show (backDoorStats p beta alpha).muZ = p * ((1 / 2 + alpha) * 1 + (1 / 2 - alpha) * 1) + (1 - p) * (1 / 2 * 0 + 1 / 2 * 0) by simp only [backDoorStats]; ring]
    refine this.trans (ENNReal.ofReal_le_ofReal ?_)
    push_cast
    gcongr
    nlinarith [sq_nonneg (p - 1 / 2)]
  have f4 : P {ω | 1 / 400 ≤ |mean (sample U G 1000000 ω fun q => (zx p alpha q).2) - (backDoorStats p beta alpha).muX|} ≤ ENNReal.ofReal (1 / 4 / 1000000 / (1 / 400) ^ 2) := by
    have := empMean_far (numbersOf_iid hN hn) (g := fun q => (zx p alpha q).2) (measurable_snd.comp (measurable_zx p alpha)) (table_memLp hT hL (fun _ x => x) 2) hn
      (show (0 : ℝ) < 1 / 400 by norm_num)
    obtain ⟨m1, m2⟩ := affine_moments hT hL hv (f := fun ω => (zx p alpha (numbersOf U G 1000000 0 ω)).2) (fun _ x => x) (fun _ _ => 0) fun ω => by simp
    rw [m1, m2] at this
    rw [show (backDoorStats p beta alpha).muX = p * ((1 / 2 + alpha) * 1 + (1 / 2 - alpha) * 0) + (1 - p) * (1 / 2 * 1 + 1 / 2 * 0) by simp only [backDoorStats]; ring]
    refine this.trans (ENNReal.ofReal_le_ofReal ?_)
    push_cast
    gcongr
    nlinarith [sq_nonneg (alpha * p)]
  refine (measure_mono (t := (_ ∪ _) ∪ (_ ∪ _)) fun ω hω => ?_).trans ((measure_union_le _ _).trans ((add_le_add ((measure_union_le _ _).trans (add_le_add f1 f2))
    ((measure_union_le _ _).trans (add_le_add f3 f4))).trans ?_))
  · rw [Set.mem_ofPred_eq, testBackDoor_start hp hbeta halpha hv] at hω
    by_contra hcon
    simp only [Set.mem_union, Set.mem_ofPred_eq, not_or, not_le] at hcon
    obtain ⟨⟨c1, c2⟩, c3, c4⟩ := hcon
    refine hω (congrArg Except.ok ?_)
    refine backBool_of_near hd hmu hcross (sample_ne hn ω _) (sample_ne hn ω _) (sample_ne hn ω _) (fun x hx => ?_) (fun x hx => ?_) c1 c2 c3 c4
    · obtain ⟨k, -, rfl⟩ := List.mem_map.1 hx
      exact (zx_cases _ _ _).2
    · obtain ⟨k, -, rfl⟩ := List.mem_map.1 hx
      exact (zx_cases _ _ _).1
  · rw [← ENNReal.ofReal_add (by positivity) (by positivity), ← ENNReal.ofReal_add (by positivity) (by positivity), ← ENNReal.ofReal_add (by positivity) (by positivity)]
    refine ENNReal.ofReal_le_ofReal ?_
    norm_num

end

/-! ## The front-door example -/

/-- The two assertions of `test_scm_frontdoor_statistics` about the responses. -/
noncomputable def responseChecks (s : FrontDoorStats) (n : ℕ) (rsp : List ℝ) (top : ℝ) : Bool :=
  close (mean rsp) s.muY (1 / 10 ^ 7) (4 * top ^ 2 / Real.sqrt n) && close (var rsp) s.varY (1 / 10 ^ 7) (4 * (4 * top ^ 2 / Real.sqrt n) * s.varY)

/-- A dataset of units with binary covariates `u`, `z`, binary exposures and the responses `ys`. -/
structure BinaryData (d : ExpData (Cell ℝ)) (ys : List (Cell ℝ)) : Prop where
  rsp : d.rsp = some ys
  exp : ∃ xs, d.exp = some xs ∧ xs ≠ [] ∧ ∀ x ∈ xs, x.val = 0 ∨ x.val = 1
  cov : ∃ k rows, d.cov = some (.d2 k rows) ∧ rows ≠ [] ∧ ∀ r ∈ rows, ∃ u z, r = [u, z] ∧ (u.val = 0 ∨ u.val = 1) ∧ (z.val = 0 ∨ z.val = 1)

theorem column_pair {d : ExpData (Cell ℝ)} {k : ℕ} {rows : List (List (Cell ℝ))} (hc : d.cov = some (.d2 k rows)) (hr : rows ≠ [])
    (h : ∀ r ∈ rows, ∃ u z : Cell ℝ, r = [u, z] ∧ (u.val = 0 ∨ u.val = 1) ∧ (z.val = 0 ∨ z.val = 1)) {j : ℕ} (hj : j < 2) :
    ∃ zs, column j d = .ok zs ∧ zs ≠ [] ∧ ∀ z ∈ zs, z = 0 ∨ z = 1 := by
  unfold column
  rw [hc]
  clear hc
  have main : ∀ l : List (List (Cell ℝ)), (∀ r ∈ l, ∃ u z : Cell ℝ, r = [u, z] ∧ (u.val = 0 ∨ u.val = 1) ∧ (z.val = 0 ∨ z.val = 1)) →
      ∃ zs, (l.mapM fun r => match r[j]? with
        | none => (.error .indexError : Except PyErr ℝ)
        | some c => .ok c.val) = .ok zs ∧ zs.length = l.length ∧ ∀ z ∈ zs, z = 0 ∨ z = 1 := by
    intro l
    induction l with
    | nil => exact fun _ => ⟨[], rfl, rfl, by simp⟩
    | cons r l ih =>
      intro hl
      obtain ⟨zs, e, hlen, hb⟩ := ih fun r' h' => hl r' (by simp [h'])
      obtain ⟨u, z, rfl, hu, hz⟩ := hl r (by simp)
      rw [List.mapM_cons, e]
      rcases j with _ | _ | j
      · exact ⟨u.val :: zs, rfl, by simp [hlen], by simpa using ⟨hu, hb⟩⟩
      · exact ⟨z.val :: zs, rfl, by simp [hlen], by simpa using ⟨hz, hb⟩⟩
      · omega
  obtain ⟨zs, e, hlen, hb⟩ := main rows h
  refine ⟨zs, e, ?_, hb⟩
  rintro rfl
  exact hr (List.length_eq_zero_iff.1 hlen.symm)

theorem maximum_eq {ys : List ℝ} {top : ℝ} (h : IsGreatest {y | y ∈ ys} top) : maximum ys = .ok top := by
  have main : ∀ (l : List ℝ) (x : ℝ), (l.foldl max x = x ∨ l.foldl max x ∈ l) ∧ x ≤ l.foldl max x ∧ ∀ y ∈ l, y ≤ l.foldl max x := by
    intro l
    induction l with
    | nil => intro x; simp
    | cons a l ih =>
      intro x
      obtain ⟨i1, i2, i3⟩ := ih (max x a)
      rw [List.foldl_cons]
      refine ⟨?_, (le_max_left _ _).trans i2, ?_⟩
      · rcases i1 with i1 | i1
        · rw [i1]
          rcases max_choice x a with h | h <;> rw [h] <;> simp
        · exact Or.inr (by simp [i1])
      · intro y hy
        rcases List.mem_cons.1 hy with rfl | hy
        · exact (le_max_right _ _).trans i2
        · exact i3 y hy
  match ys, h with
  | [], h => exact absurd h.1 (by simp)
  | x :: l, h =>
    obtain ⟨i1, i2, i3⟩ := main l x
    refine congrArg Except.ok (le_antisymm (h.2 ?_) ?_)
    · rcases i1 with i1 | i1
      · simp [i1]
      · simp [i1]
    · rcases List.mem_cons.1 h.1 with e | e
      · rw [e]; exact i2
      · exact i3 _ e

theorem mean_vacuous {xs : List ℝ} {m tol : ℝ} (hx : xs ≠ []) (hb : ∀ x ∈ xs, x = 0 ∨ x = 1) (h0 : 0 ≤ m) (h1 : m ≤ 1) (ht : 1 ≤ tol) : close (mean xs) m (1 / 10 ^ 7) tol = true := by
  obtain ⟨r1, r2⟩ := mean_binary _ hx hb
  rw [close_iff]
  have : |mean xs - m| ≤ 1 := abs_le.2 ⟨by linarith, by linarith⟩
  have := abs_nonneg m
  linarith

theorem var_vacuous {xs : List ℝ} {m tol : ℝ} (hx : xs ≠ []) (hb : ∀ x ∈ xs, x = 0 ∨ x = 1) (h0 : 1 / 5 ≤ m) (h1 : m ≤ 4 / 5) (ht : 1 ≤ tol) :
    close (var xs) (m * (1 - m)) (1 / 10 ^ 7) (tol * (m * (1 - m))) = true := by
  obtain ⟨r1, r2⟩ := mean_binary _ hx hb
  rw [close_iff, var_binary _ hx hb]
  have hv : 4 / 25 ≤ m * (1 - m) := by nlinarith
  have h2 : mean xs * (1 - mean xs) ≤ 1 / 4 := by nlinarith [sq_nonneg (mean xs - 1 / 2)]
  have h3 : 0 ≤ mean xs * (1 - mean xs) := mul_nonneg r1 (by linarith)
  have h4 : m * (1 - m) ≤ tol * (m * (1 - m)) := le_mul_of_one_le_left (by linarith) ht
  have : |mean xs * (1 - mean xs) - m * (1 - m)| ≤ tol * (m * (1 - m)) := abs_le.2 ⟨by linarith, by linarith⟩
  have := abs_nonneg (m * (1 - m))
  linarith

theorem front_means {p beta alpha1 : ℝ} (hp : p ∈ Set.Icc (1 / 5 : ℝ) (4 / 5)) (hbeta : beta ∈ Set.Icc (-1 : ℝ) 1) (h1 : alpha1 ∈ Set.Icc (-(3 / 10) : ℝ) (3 / 10)) (gamma alpha2 : ℝ) :
    (frontDoorStats p beta gamma alpha1 alpha2).muX ∈ Set.Icc (1 / 5 : ℝ) (4 / 5) ∧ (frontDoorStats p beta gamma alpha1 alpha2).muZ ∈ Set.Icc (1 / 5 : ℝ) (4 / 5) := by
  obtain ⟨p0, p1⟩ := hp
  have ga : 1 / 4 < g alpha1 ∧ g alpha1 < 3 / 4 := logistic_bounds (by linarith [h1.1]) (by linarith [h1.2])
  have gb : 1 / 4 < g beta ∧ g beta < 3 / 4 := logistic_bounds hbeta.1 hbeta.2
  simp only [frontDoorStats]
  have x : p * g alpha1 + (1 - p) / 2 ∈ Set.Icc (3 / 10 : ℝ) (7 / 10) := ⟨by nlinarith, by nlinarith⟩
  refine ⟨⟨by linarith [x.1], by linarith [x.2]⟩, ?_⟩
  generalize p * g alpha1 + (1 - p) / 2 = m at x
  obtain ⟨x0, x1⟩ := x
  exact ⟨by nlinarith, by nlinarith⟩

/-- **C106** For binary exposures and covariates and at most 100000 units of which one has a response of at least 9, the assertions of `test_scm_frontdoor_statistics` about the exposures, the
mediators and the confounders hold whatever they are: the tolerance is at least 1.  Only the two assertions about the responses are left. -/
theorem C106_front_door_vacuous {p beta gamma alpha1 alpha2 : ℝ} (hp : p ∈ Set.Icc (1 / 5 : ℝ) (4 / 5)) (hbeta : beta ∈ Set.Icc (-1 : ℝ) 1)
    (h1 : alpha1 ∈ Set.Icc (-(3 / 10) : ℝ) (3 / 10)) {n : ℕ} (hn : 0 < n) (hn' : n ≤ 100000) {d : ExpData (Cell ℝ)} {ys : List (Cell ℝ)} (hd : BinaryData d ys) {top : ℝ}
    (htop : IsGreatest {y | y ∈ ys.map Cell.val} top) (h9 : 9 ≤ top) :
    frontDoorChecks (frontDoorStats p beta gamma alpha1 alpha2) n d = .ok (responseChecks (frontDoorStats p beta gamma alpha1 alpha2) n (ys.map Cell.val) top) := by
  obtain ⟨xs, ex, nx, bx⟩ := hd.exp
  obtain ⟨k, rows, ec, nr, br⟩ := hd.cov
  obtain ⟨us, eu, nu, bu⟩ := column_pair ec nr br (show 0 < 2 by norm_num)
  obtain ⟨zs, ez, nz, bz⟩ := column_pair ec nr br (show 1 < 2 by norm_num)
  obtain ⟨mX, mZ⟩ := front_means hp hbeta h1 gamma alpha2
  have nx' : xs.map Cell.val ≠ [] := by simpa using nx
  have bx' : ∀ x ∈ xs.map Cell.val, x = 0 ∨ x = 1 := by simpa using bx
  have ht : 1 ≤ 4 * top ^ 2 / Real.sqrt n := by
    have hs : 0 < Real.sqrt n := Real.sqrt_pos.2 (by exact_mod_cast hn)
    have hs' : Real.sqrt n ≤ 324 := by
      rw [Real.sqrt_le_left (by norm_num)]
      have : (n : ℝ) ≤ 100000 := by exact_mod_cast hn'
      linarith
    rw [le_div_iff₀ hs]
    nlinarith
  have eX : (frontDoorStats p beta gamma alpha1 alpha2).varX = (frontDoorStats p beta gamma alpha1 alpha2).muX * (1 - (frontDoorStats p beta gamma alpha1 alpha2).muX) := rfl
  have eZ : (frontDoorStats p beta gamma alpha1 alpha2).varZ = (frontDoorStats p beta gamma alpha1 alpha2).muZ * (1 - (frontDoorStats p beta gamma alpha1 alpha2).muZ) := rfl
  have eU : (frontDoorStats p beta gamma alpha1 alpha2).varU = p * (1 - p) := rfl
  have eU' : (frontDoorStats p beta gamma alpha1 alpha2).muU = p := rfl
  unfold frontDoorChecks
  rw [ex, hd.rsp, eu, ez]
  simp only [numbers, Bind.bind, Except.bind, maximum_eq htop, pure, Except.pure]
  rw [mean_vacuous nx' bx' (by linarith [mX.1]) (by linarith [mX.2]) ht, mean_vacuous nz bz (by linarith [mZ.1]) (by linarith [mZ.2]) ht, eU', mean_vacuous nu bu (by linarith [hp.1]) (by linarith [hp.2]) ht,
    eX, eZ, eU, var_vacuous nx' bx' mX.1 mX.2 ht, var_vacuous nz bz mZ.1 mZ.2 ht, var_vacuous nu bu hp.1 hp.2 ht]
  simp [responseChecks]

/-- **C106** Under these conditions the test does not tell datasets with the same responses apart: one whose exposures and covariates are drawn from another distribution, or are constant, gets
the same verdict. -/
theorem C106_front_door_blind {p beta gamma alpha1 alpha2 : ℝ} (hp : p ∈ Set.Icc (1 / 5 : ℝ) (4 / 5)) (hbeta : beta ∈ Set.Icc (-1 : ℝ) 1)
    (h1 : alpha1 ∈ Set.Icc (-(3 / 10) : ℝ) (3 / 10)) {n : ℕ} (hn : 0 < n) (hn' : n ≤ 100000) {d d' : ExpData (Cell ℝ)} {ys : List (Cell ℝ)} (hd : BinaryData d ys) (hd' : BinaryData d' ys)
    (h9 : ∃ y ∈ ys, 9 ≤ y.val) :
    frontDoorChecks (frontDoorStats p beta gamma alpha1 alpha2) n d = frontDoorChecks (frontDoorStats p beta gamma alpha1 alpha2) n d' := by
  obtain ⟨y, hy, h9⟩ := h9
  obtain ⟨top, htop⟩ : ∃ top, IsGreatest {y | y ∈ ys.map Cell.val} top :=
    (List.finite_toSet (ys.map Cell.val)).toFinset.exists_maximal ⟨y.val, by simpa using ⟨y, hy, rfl⟩⟩ |>.elim fun t ht =>
      ⟨t, by simpa using ht.1, fun x hx => by
        rcases le_total x t with h | h
        · exact h
        · exact ht.2 (by simpa using hx) h⟩
  have ht : 9 ≤ top := h9.trans (htop.2 (List.mem_map_of_mem hy))
  rw [C106_front_door_vacuous hp hbeta h1 hn hn' hd htop ht, C106_front_door_vacuous hp hbeta h1 hn hn' hd' htop ht]

/-! ## Non-vacuity -/

open NumbersDemo in
/-- non-vacuity of `C106_back_door_fails` with the 1000000 units of the test: `p = 1/2`, `beta = 29/10`, `alpha = -3/10` -/
example {V : Type} (v0 : V) : space {ω | (testBackDoor Numbers.gen 1000000 (Numbers.start [1 / 2, 59 / 60, 0] (fun i => ω (.inl i)) (fun i => ω (.inr i)) v0)).1 = .ok true} ≤
    ENNReal.ofReal (70000 / (1000000 : ℕ)) :=
  C106_back_door_fails (p := 1 / 2) (beta := 29 / 10) (alpha := -(3 / 10)) randomNumbers (by norm_num) (by norm_num) (by norm_num) (by norm_num) (by norm_num) (by norm_num) (by norm_num)
    (by
      rw [show ((1000000 : ℕ) : ℝ) = 1000 ^ 2 by norm_num, Real.sqrt_sq (by norm_num)]
      simp only [backSecond, backCross, backDoorStats]
      rw [abs_of_neg (by norm_num)]
      norm_num) v0

open NumbersDemo in
/-- non-vacuity of `C106_back_door_limit` -/
example {V : Type} (v0 : V) : Tendsto (fun n => space {ω | (testBackDoor Numbers.gen n (Numbers.start [1 / 2, 3 / 4, 2 / 3] (fun i => ω (.inl i)) (fun i => ω (.inr i)) v0)).1 = .ok true}) atTop (𝓝 0) :=
  C106_back_door_limit (p := 1 / 2) (beta := 3 / 2) (alpha := 1 / 10) randomNumbers (by norm_num) (by norm_num) (by norm_num) (by norm_num) (by norm_num) (by norm_num)
    (by
      simp only [backCross, backDoorStats]
      rw [abs_of_pos (by norm_num)]
      norm_num) v0

open NumbersDemo in
/-- non-vacuity of `C106_back_door_passes`: `p = 1/2`, `beta = 3/2`, `alpha = 1/10` -/
example {V : Type} (v0 : V) : space {ω | (testBackDoor Numbers.gen 1000000 (Numbers.start [1 / 2, 3 / 4, 2 / 3] (fun i => ω (.inl i)) (fun i => ω (.inr i)) v0)).1 ≠ .ok true} ≤ ENNReal.ofReal (1 / 5) :=
  C106_back_door_passes (p := 1 / 2) (beta := 3 / 2) (alpha := 1 / 10) randomNumbers (by norm_num) (by norm_num) (by norm_num) (by norm_num) (by norm_num) (by norm_num)
    (by simp only [backDoorStats]; norm_num)
    (by
      simp only [backSecond, backCross, backDoorStats]
      rw [abs_of_pos (by norm_num)]
      norm_num) v0

/-- a dataset of one unit -/
noncomputable def oneUnit (u z x : ℤ) (y : ℝ) : ExpData (Cell ℝ) := ⟨some (.d2 2 [[.int u, .int z]]), some [.int x], some [.flt y], 1, 2⟩

/-- non-vacuity of `C106_front_door_vacuous` and `C106_front_door_blind`: a unit that differs from another in its exposure and covariates -/
example : frontDoorChecks (frontDoorStats (1 / 2) 1 7 (1 / 10) 0) 1 (oneUnit 0 0 0 10) = frontDoorChecks (frontDoorStats (1 / 2) 1 7 (1 / 10) 0) 1 (oneUnit 1 1 1 10) :=
  C106_front_door_blind (by norm_num) (by norm_num) (by norm_num) one_pos (by norm_num)
    (ys := [.flt 10])
    ⟨rfl, ⟨_, rfl, by simp, by simp [Cell.val]⟩, ⟨_, _, rfl, by simp, by simp [Cell.val]⟩⟩ ⟨rfl, ⟨_, rfl, by simp, by simp [Cell.val]⟩, ⟨_, _, rfl, by simp, by simp [Cell.val]⟩⟩
    ⟨.flt 10, by simp, by simp [Cell.val]; norm_num⟩

end DataTest
end Verif
