import Verif.Lemmas.AipwTest
import Verif.Lemmas.FrontDoorTest
import Verif.Lemmas.FrontUnit3
import Verif.Model.ParametersTest
import Verif.Props.ExampleScm5
import Verif.Spec.ParametersTest

/-!
# Property C104: with what probability the project's tests of nuisance parameters pass
-/

set_option linter.unusedSectionVars false
set_option linter.unusedSimpArgs false

namespace Verif
open MeasureTheory ProbabilityTheory Filter Topology

namespace ParametersTest
open Example Section5

theorem close_iff (x y r t : ℝ) : close x y r t = true ↔ |x - y| ≤ t + r * |y| := by simp [close]

theorem allClose_one (x y r t : ℝ) : allClose [x] [y] r t = close x y r t := by simp [allClose]

theorem allClose_four (x0 x1 x2 x3 y0 y1 y2 y3 r t : ℝ) : allClose [x0, x1, x2, x3] [y0, y1, y2, y3] r t =
    (close x0 y0 r t && (close x1 y1 r t && (close x2 y2 r t && close x3 y3 r t))) := by simp [allClose]

variable {M W : Type} {R : Predictor M ℝ}

theorem checkCell_eq (x z : Int) (y : ℝ) (s : FrontDoor M ℝ) : ∃ t, s.cpd.Same t ∧
    checkCell x z y s = (.ok (close (s.cpd.cell (.int x) [.int z]) y (1 / 10) 0), { s with cpd := t }) := by
  obtain ⟨t, h1, h2⟩ := FrontDoor.look_eq [Cell.int x] [[Cell.int z]] s
  refine ⟨t, h1, ?_⟩
  unfold checkCell
  rw [Py.bind_apply, h2]
  simp [Py.pure_apply, allClose_one]

/-- the value of the assertions -/
theorem checks_eq (F : FrontDoorReturn W) (s : FrontDoor M ℝ) : (frontDoorChecks R F s).1 = .ok
    (close s.expProb F.stats.muX (1 / 10 * F.stats.muX) 0 && close (s.cpd.cell (.int 1) [.int 1]) (g F.beta) (1 / 10) 0 &&
      close (s.cpd.cell (.int 1) [.int 0]) (1 - g F.beta) (1 / 10) 0 && close (s.cpd.cell (.int 0) [.int 1]) (1 / 2) (1 / 10) 0 &&
      close (s.cpd.cell (.int 0) [.int 0]) (1 / 2) (1 / 10) 0 &&
      allClose [R.predict s.yResponse [0, 0], R.predict s.yResponse [0, 1], R.predict s.yResponse [1, 0], R.predict s.yResponse [1, 1]]
        [0, F.gamma, F.alpha2 * F.stats.muU, F.gamma + F.alpha2] (1 / 10 ^ 7) (1 / 5)) := by
  unfold frontDoorChecks
  obtain ⟨t1, a1, e1⟩ := checkCell_eq 1 1 (g F.beta) s
  obtain ⟨t2, a2, e2⟩ := checkCell_eq 1 0 (1 - g F.beta) { s with cpd := t1 }
  obtain ⟨t3, a3, e3⟩ := checkCell_eq 0 1 (1 / 2) { s with cpd := t2 }
  obtain ⟨t4, a4, e4⟩ := checkCell_eq 0 0 (1 / 2) { s with cpd := t3 }
  rw [Py.bind_apply]
  simp only [Py.get]
  rw [Py.bind_apply, e1]
  simp only []
  rw [Py.bind_apply, e2]
  simp only []
  rw [Py.bind_apply, e3]
  simp only []
  rw [Py.bind_apply, e4]
  simp only [Predictor.predictRows, List.isEmpty_cons, Bool.false_eq_true, if_false, List.map_cons, List.map_nil]
  rw [a1.cell, (a1.trans a2).cell, (a1.trans (a2.trans a3)).cell]
  rfl

theorem close_true {x : ℕ → ℝ} {x0 y r t : ℝ} (h : Tendsto x atTop (𝓝 x0)) (hc : |x0 - y| < t + r * |y|) : ∀ᶠ n in atTop, close (x n) y r t = true := by
  filter_upwards [((h.sub_const y).abs).eventually_lt_const hc] with n hn
  exact (close_iff _ _ _ _).2 hn.le

theorem close_false {x : ℕ → ℝ} {x0 y r t : ℝ} (h : Tendsto x atTop (𝓝 x0)) (hc : t + r * |y| < |x0 - y|) : ∀ᶠ n in atTop, close (x n) y r t = false := by
  filter_upwards [((h.sub_const y).abs).eventually_const_lt hc] with n hn
  rw [← Bool.not_eq_true, close_iff]
  exact not_le.2 hn

/-- the returned dict for given parameters -/
noncomputable def frontReturn (S : SCM String ℝ W) (p beta gamma alpha1 alpha2 : ℝ) : FrontDoorReturn W :=
  ⟨S, frontDoorStats p beta gamma alpha1 alpha2, alpha1, alpha2, beta, gamma⟩

section
variable {V Ω : Type} {U G : ℕ → Ω → ℝ} {a b c d e : ℝ} {ridge0 : M}

theorem numbers_at (n i : ℕ) (hi : i < n) (ω : Ω) (xs : List ℝ) : ((followedBy xs (fun j => U j ω) (xs.length + i), followedBy xs (fun j => U j ω) (xs.length + n + i)),
    followedBy xs (fun j => U j ω) (xs.length + n + n + i), G i ω) = fourNumbers U G n i ω := by
  have h : ∀ j, followedBy xs (fun j => U j ω) (xs.length + j) = U j ω := by
    intro j
    unfold followedBy
    rw [List.getD_eq_default _ _ (by omega), Nat.add_sub_cancel_left]
  have hd : i / n = 0 := Nat.div_eq_of_lt hi
  have hm : i % n = i := Nat.mod_eq_of_lt hi
  rw [add_assoc xs.length n i, add_assoc (xs.length + n) n i, add_assoc xs.length n (n + i), h, h, h]
  simp only [fourNumbers, triplePos, hd, hm]
  refine Prod.ext (Prod.ext ?_ ?_) (Prod.ext ?_ rfl)
  · show U i ω = U _ ω
    congr 1; omega
  · show U (n + i) ω = U _ ω
    congr 1; omega
  · show U (n + (n + i)) ω = U _ ω
    congr 1; omega

theorem testFrontDoor_start (hp : 0 ≤ 1 / 5 + 3 / 5 * a ∧ 1 / 5 + 3 / 5 * a ≤ 1) (v0 : V) {S : SCM String ℝ (Numbers V)}
    (hS : frontDoorScm Numbers.gen (1 / 5 + 3 / 5 * a) (-1 + 2 * b) (5 + 5 * c) (-(3 / 10) + 3 / 5 * d) (-(3 / 10) + 3 / 5 * e) = .ok S) {n : ℕ} {ω : Ω} {e' : FrontDoor M ℝ}
    (hf : FrontDoor.fit R (Obs.dataset 1 ((List.range n).map fun k => mediatorUnit (1 / 5 + 3 / 5 * a) (-1 + 2 * b) (5 + 5 * c) (-(3 / 10) + 3 / 5 * d) (-(3 / 10) + 3 / 5 * e)
      (fourNumbers U G n k ω))) (FrontDoor.new ridge0 1 5 (1 / 20) 5) = (.ok (), e')) {v : Bool}
    (hv : (frontDoorChecks R (frontReturn S (1 / 5 + 3 / 5 * a) (-1 + 2 * b) (5 + 5 * c) (-(3 / 10) + 3 / 5 * d) (-(3 / 10) + 3 / 5 * e)) e').1 = .ok v) :
    (testFrontDoor Numbers.gen R ridge0 n (Numbers.start [a, b, c, d, e] (fun i => U i ω) (fun i => G i ω) v0)).1 = .ok v := by
  have hg := generate_front hp hS n { Numbers.start [a, b, c, d, e] (fun i => U i ω) (fun i => G i ω) v0 with i := 5 }
  have hu : ((List.range n).map fun i => frontUnitOf (1 / 5 + 3 / 5 * a) (-1 + 2 * b) (5 + 5 * c) (-(3 / 10) + 3 / 5 * d) (-(3 / 10) + 3 / 5 * e)
      ((followedBy [a, b, c, d, e] (fun i => U i ω) (5 + i), followedBy [a, b, c, d, e] (fun i => U i ω) (5 + n + i)), followedBy [a, b, c, d, e] (fun i => U i ω) (5 + n + n + i),
        G (0 + i) ω)) = (List.range n).map fun i => frontUnitOf (1 / 5 + 3 / 5 * a) (-1 + 2 * b) (5 + 5 * c) (-(3 / 10) + 3 / 5 * d) (-(3 / 10) + 3 / 5 * e) (fourNumbers U G n i ω) := by
    refine List.map_congr_left fun i hi => ?_
    rw [Nat.zero_add]
    exact congrArg _ (numbers_at n i (List.mem_range.1 hi) ω [a, b, c, d, e])
  unfold testFrontDoor
  erw [Py.bind_apply]; rw [frontDoor_start, hS]
  simp only [Except.map]
  rw [Py.bind_apply, hg]
  simp only [Numbers.start]
  rw [hu, shows_removeCoord.dataset _ (by simp [frontUnitOf, frontUnit])]
  rw [List.map_map]
  simp only [Py.bind_apply, Py.lift]
  simp only [Function.comp_def, frontUnit_mediator]
  rw [hf]
  exact hv

theorem unexposed_eq (p alpha1 : ℝ) : p * (1 - logistic alpha1) / (1 - expo p alpha1) = unexposedMean p alpha1 := by
  unfold unexposedMean expo
  congr 1
  ring

theorem sum_limit {x y : ℕ → ℝ} {alpha m l : ℝ} (hx : Tendsto x atTop (𝓝 (alpha * m))) (hy : Tendsto y atTop (𝓝 (alpha * (l - m)))) :
    Tendsto (fun n => x n + y n) atTop (𝓝 (alpha * l)) := by
  have e : alpha * l = alpha * m + alpha * (l - m) := by ring
  rw [e]
  exact hx.add hy

theorem affine_two (θ : Fin 3 → ℝ) (x z : ℝ) : affineValue θ [x, z] = θ 0 + θ 1 * x + θ 2 * z := by
  unfold affineValue linearValue
  simp [Fin.sum_univ_two]
  ring

end

section
variable {V Ω : Type} [MeasurableSpace Ω] {P : Measure Ω} [IsProbabilityMeasure P] {U G : ℕ → Ω → ℝ} {a b c d e : ℝ} {ridge0 : M} {SR : M → Prop} {lam : ℝ}

/-- the test has the outcome that its assertions have in the limit -/
theorem front_outcome (hN : RandomNumbers P U G) (ha : a ∈ Set.Ico (0 : ℝ) 1) (hb : b ∈ Set.Ico (0 : ℝ) 1) (hd : d ∈ Set.Ico (0 : ℝ) 1)
    (hR : R.IsRidgeIntercept SR lam) (hl : 0 ≤ lam) (h0 : SR ridge0) (v0 : V) (v : Bool)
    (hv : ∀ y : ℕ → Fin 4 → ℝ, Tendsto y atTop (𝓝 ![(-(3 / 10) + 3 / 5 * e) * unexposedMean (1 / 5 + 3 / 5 * a) (-(3 / 10) + 3 / 5 * d),
        (5 + 5 * c) + (-(3 / 10) + 3 / 5 * e) * unexposedMean (1 / 5 + 3 / 5 * a) (-(3 / 10) + 3 / 5 * d),
        (-(3 / 10) + 3 / 5 * e) * exposedMean (1 / 5 + 3 / 5 * a) (-(3 / 10) + 3 / 5 * d),
        (5 + 5 * c) + (-(3 / 10) + 3 / 5 * e) * exposedMean (1 / 5 + 3 / 5 * a) (-(3 / 10) + 3 / 5 * d)]) →
      ∀ᶠ n in atTop, allClose [y n 0, y n 1, y n 2, y n 3] [0, 5 + 5 * c, (-(3 / 10) + 3 / 5 * e) * (1 / 5 + 3 / 5 * a), (5 + 5 * c) + (-(3 / 10) + 3 / 5 * e)] (1 / 10 ^ 7) (1 / 5) = v) :
    Tendsto (fun n => P {ω | (testFrontDoor Numbers.gen R ridge0 n (Numbers.start [a, b, c, d, e] (fun i => U i ω) (fun i => G i ω) v0)).1 ≠ .ok v}) atTop (𝓝 0) := by
  have hT := fourNumbers_measurable hN 1 0
  have hL := fourNumbers_law hN one_pos 0
  obtain ⟨a0, a1⟩ := ha
  obtain ⟨b0, b1⟩ := hb
  obtain ⟨d0, d1⟩ := hd
  have hp : 0 < 1 / 5 + 3 / 5 * a ∧ 1 / 5 + 3 / 5 * a < 1 := ⟨by linarith, by linarith⟩
  have la := logistic_bounds (t := -(3 / 10) + 3 / 5 * d) (by linarith) (by linarith)
  have lb := logistic_bounds (t := -1 + 2 * b) (by linarith) (by linarith)
  have hx := expo_mem hp la
  obtain ⟨S, hS, -⟩ := C65_frontdoor_sampler (Numbers.gen (V := V)) (1 / 5 + 3 / 5 * a) (-1 + 2 * b) (5 + 5 * c) (-(3 / 10) + 3 / 5 * d) (-(3 / 10) + 3 / 5 * e) ⟨hp.1.le, hp.2.le⟩
  have hq : 1 / ((({0, 1} : Finset ℤ)).card : ℝ) / 5 ≤ 1 / 4 := by
    rw [Finset.card_pair (by norm_num)]
    norm_num
  have hcond : ∀ x : ℤ, x = 0 ∨ x = 1 → ∀ z ∈ ({0, 1} : Finset ℤ), condProb P (fun ω => (mediatorUnit (1 / 5 + 3 / 5 * a) (-1 + 2 * b) (5 + 5 * c) (-(3 / 10) + 3 / 5 * d)
      (-(3 / 10) + 3 / 5 * e) (fourNumbers U G 1 0 ω)).point 1) x z = if (x : ℝ) = 1 then (if (z : ℝ) = 1 then logistic (-1 + 2 * b) else 1 - logistic (-1 + 2 * b)) else 1 / 2 := by
    intro x hx z hz
    refine mediator_cond hT hL hp la ?_ ?_
    · rcases hx with rfl | rfl <;> simp
    · rcases Finset.mem_insert.1 hz with rfl | hz
      · simp
      · rw [Finset.mem_singleton.1 hz]; simp
  refine tendsto_of_tendsto_of_tendsto_of_le_of_le tendsto_const_nhds
    (FrontDoor.fit_likely (S := {0, 1}) (Good := fun e' => (frontDoorChecks R (frontReturn S (1 / 5 + 3 / 5 * a) (-1 + 2 * b) (5 + 5 * c) (-(3 / 10) + 3 / 5 * d) (-(3 / 10) + 3 / 5 * e)) e').1 = .ok v)
      hR hl (μ := 5) (κ := 1 / 20) (ratio := 5) (by norm_num) (by norm_num) (by norm_num) (FrontDoor.regular_new ridge0 h0 (by norm_num))
      (X := fun n k ω => mediatorUnit (1 / 5 + 3 / 5 * a) (-1 + 2 * b) (5 + 5 * c) (-(3 / 10) + 3 / 5 * d) (-(3 / 10) + 3 / 5 * e) (fourNumbers U G n k ω))
      (Y := fun ω => (mediatorUnit (1 / 5 + 3 / 5 * a) (-1 + 2 * b) (5 + 5 * c) (-(3 / 10) + 3 / 5 * d) (-(3 / 10) + 3 / 5 * e) (fourNumbers U G 1 0 ω)).point 1)
      (fun n hn => (fourNumbers_iid hN hn).comp measurable_mediator)
      (fun n hn => IdentDistrib.comp (u := fun q => (mediatorUnit (1 / 5 + 3 / 5 * a) (-1 + 2 * b) (5 + 5 * c) (-(3 / 10) + 3 / 5 * d) (-(3 / 10) + 3 / 5 * e) q).point 1)
        ⟨(fourNumbers_measurable hN n 0).aemeasurable, hT.aemeasurable, (fourNumbers_law hN hn 0).trans hL.symm⟩ measurable_mediator)
      (fun n k ω => mediatorUnit_finite _) (fun ω => FrontDoor.listed (mediatorUnit_finite _)) (mediator_memLp_y hT hL hp la 2 (by norm_num)) (mediator_nondegenerate hT hL hp la lb)
      (mediator_leastSquares hT hL hp la) ?_ ?_) (fun n => zero_le) (fun n => measure_mono fun ω hω hc => hω ?_)
  · intro x hx z hz
    rw [hcond x hx z hz]
    split
    · split
      · exact ⟨by linarith, by linarith⟩
      · exact ⟨by linarith, by linarith⟩
    · exact ⟨by linarith, by linarith⟩
  · intro es θ h1 h2 h3 h4
    rw [mediator_row hT hL hp (Or.inr rfl), if_pos rfl, clamp_id hT hL hp la (by norm_num) hx] at h3
    have c11 := h4 1 (Or.inr rfl) 1 (by simp)
    have c10 := h4 1 (Or.inr rfl) 0 (by simp)
    have c01 := h4 0 (Or.inl rfl) 1 (by simp)
    have c00 := h4 0 (Or.inl rfl) 0 (by simp)
    rw [hcond _ (by simp) _ (by simp)] at c11 c10 c01 c00
    simp only [Int.cast_one, Int.cast_zero, if_true, zero_ne_one, if_false] at c11 c10 c01 c00
    have hth : ∀ j, Tendsto (fun n => θ n j) atTop (𝓝 (mediatorCoef (1 / 5 + 3 / 5 * a) (5 + 5 * c) (-(3 / 10) + 3 / 5 * d) (-(3 / 10) + 3 / 5 * e) j)) := fun j => (tendsto_pi_nhds.1 h2) j
    have hy := hv (fun n => ![θ n 0, θ n 0 + θ n 2, θ n 0 + θ n 1, θ n 0 + θ n 1 + θ n 2]) (by
      have t0 := hth 0
      have t1 := hth 1
      have t2 := hth 2
      simp only [mediatorCoef, Matrix.cons_val_zero, Matrix.cons_val_one, Matrix.cons_val, unexposed_eq] at t0 t1 t2
      refine tendsto_pi_nhds.2 fun j => ?_
      fin_cases j
      · exact t0
      · show Tendsto (fun n => θ n 0 + θ n 2) atTop (𝓝 ((5 + 5 * c) + (-(3 / 10) + 3 / 5 * e) * unexposedMean (1 / 5 + 3 / 5 * a) (-(3 / 10) + 3 / 5 * d)))
        rw [add_comm (5 + 5 * c)]
        exact t0.add t2
      · show Tendsto (fun n => θ n 0 + θ n 1) atTop (𝓝 ((-(3 / 10) + 3 / 5 * e) * exposedMean (1 / 5 + 3 / 5 * a) (-(3 / 10) + 3 / 5 * d)))
        exact sum_limit t0 t1
      · show Tendsto (fun n => θ n 0 + θ n 1 + θ n 2) atTop (𝓝 ((5 + 5 * c) + (-(3 / 10) + 3 / 5 * e) * exposedMean (1 / 5 + 3 / 5 * a) (-(3 / 10) + 3 / 5 * d)))
        rw [add_comm (5 + 5 * c)]
        exact (sum_limit t0 t1).add t2)
    have k0 : ∀ᶠ n in atTop, close (es n).expProb (expo (1 / 5 + 3 / 5 * a) (-(3 / 10) + 3 / 5 * d)) (1 / 10 * expo (1 / 5 + 3 / 5 * a) (-(3 / 10) + 3 / 5 * d)) 0 = true := by
      refine close_true h3 ?_
      rw [sub_self, abs_zero, zero_add, abs_of_pos (by linarith)]
      have : 0 < expo (1 / 5 + 3 / 5 * a) (-(3 / 10) + 3 / 5 * d) := by linarith
      positivity
    have kc : ∀ {x : ℕ → ℝ} {y : ℝ}, 0 < y → Tendsto x atTop (𝓝 y) → ∀ᶠ n in atTop, close (x n) y (1 / 10) 0 = true := by
      intro x y hy h
      refine close_true h ?_
      rw [sub_self, abs_zero, zero_add, abs_of_pos hy]
      positivity
    filter_upwards [h1, hy, k0, kc (by linarith) c11, kc (by linarith) c10, kc (by norm_num) c01, kc (by norm_num) c00] with n p1 p2 p3 p4 p5 p6 p7
    rw [checks_eq]
    simp only [frontReturn, frontDoorStats, g_eq]
    rw [p1 _ rfl, p1 _ rfl, p1 _ rfl, p1 _ rfl, p4, p5, p6, p7, show (1 / 5 + 3 / 5 * a) * logistic (-(3 / 10) + 3 / 5 * d) + (1 - (1 / 5 + 3 / 5 * a)) / 2 =
      expo (1 / 5 + 3 / 5 * a) (-(3 / 10) + 3 / 5 * d) from rfl, p3]
    simp only [affine_two, mul_zero, mul_one, add_zero, Bool.true_and]
    exact congrArg Except.ok p2
  · obtain ⟨e', h1, h2⟩ := hc
    exact testFrontDoor_start ⟨hp.1.le, hp.2.le⟩ v0 hS h1 h2

theorem mean_gap {p alpha1 : ℝ} (hp : 0 < p ∧ p < 1) (h1 : 1 / 4 < logistic alpha1 ∧ logistic alpha1 < 3 / 4) : |exposedMean p alpha1 - p| ≤ 1 / 4 := by
  have he := expo_mem hp h1
  have h0 : 0 < p * logistic alpha1 + (1 - p) / 2 := by
    have := he.1
    unfold expo at this
    linarith
  have e : exposedMean p alpha1 - p = p * (1 - p) * (logistic alpha1 - 1 / 2) / (p * logistic alpha1 + (1 - p) / 2) := by
    unfold exposedMean
    rw [eq_div_iff h0.ne', sub_mul, div_mul_cancel₀ _ h0.ne']
    ring
  rw [e, abs_div, abs_of_pos h0, div_le_iff₀ h0, abs_mul, abs_of_pos (mul_pos hp.1 (by linarith [hp.2]))]
  have a1 : |logistic alpha1 - 1 / 2| ≤ 1 / 4 := abs_le.2 ⟨by linarith, by linarith⟩
  have a2 : p * (1 - p) ≤ 1 / 4 := by nlinarith [sq_nonneg (p - 1 / 2)]
  have a3 := he.1
  unfold expo at a3
  have a4 : 0 < p * (1 - p) := mul_pos hp.1 (by linarith [hp.2])
  nlinarith [abs_nonneg (logistic alpha1 - 1 / 2)]

/-- **C104** `test_frontdoorlinearfinitez`, for given parameters of the SCM: if the responses without mediator of unexposed units and the responses with mediator of exposed units are
within .2 of what the test expects, the probability that the test does not pass with `n` units tends to 0 as `n` grows. -/
theorem C104_front_door_passes (hN : RandomNumbers P U G) (ha : a ∈ Set.Ico (0 : ℝ) 1) (hb : b ∈ Set.Ico (0 : ℝ) 1) (hd : d ∈ Set.Ico (0 : ℝ) 1)
    (he : e ∈ Set.Ico (0 : ℝ) 1) (hR : R.IsRidgeIntercept SR lam) (hl : 0 ≤ lam) (h0 : SR ridge0) (v0 : V) {p alpha1 alpha2 : ℝ} (hp : p = 1 / 5 + 3 / 5 * a)
    (h1 : alpha1 = -(3 / 10) + 3 / 5 * d) (h2 : alpha2 = -(3 / 10) + 3 / 5 * e) (hlow : |alpha2| * unexposedMean p alpha1 < 1 / 5)
    (hhigh : |alpha2| * (1 - exposedMean p alpha1) < 1 / 5) :
    Tendsto (fun n => P {ω | (testFrontDoor Numbers.gen R ridge0 n (Numbers.start [a, b, c, d, e] (fun i => U i ω) (fun i => G i ω) v0)).1 ≠ .ok true}) atTop (𝓝 0) := by
  refine front_outcome hN ha hb hd hR hl h0 v0 true ?_
  rw [← hp, ← h1, ← h2]
  intro y hy
  have hp1 : 0 < p ∧ p < 1 := by
    obtain ⟨x1, x2⟩ := ha
    rw [hp]
    exact ⟨by linarith, by linarith⟩
  have la : 1 / 4 < logistic alpha1 ∧ logistic alpha1 < 3 / 4 := by
    obtain ⟨x1, x2⟩ := hd
    rw [h1]
    exact logistic_bounds (by linarith) (by linarith)
  have hal : |alpha2| ≤ 3 / 10 := by
    obtain ⟨x1, x2⟩ := he
    rw [h2]
    exact abs_le.2 ⟨by linarith, by linarith⟩
  have hgap := mean_gap hp1 la
  have m0 : 0 ≤ unexposedMean p alpha1 := by
    unfold unexposedMean
    have : 0 < p * (1 - logistic alpha1) := mul_pos hp1.1 (by linarith)
    have : 0 < (1 - p) / 2 := by linarith [hp1.2]
    positivity
  have m1 : 0 ≤ 1 - exposedMean p alpha1 := by
    have q1 : 0 < p * logistic alpha1 := mul_pos hp1.1 (by linarith)
    have q2 : 0 < (1 - p) / 2 := by linarith [hp1.2]
    have : exposedMean p alpha1 ≤ 1 := by
      unfold exposedMean
      rw [div_le_one (by linarith)]
      linarith
    linarith
  have hy' := tendsto_pi_nhds.1 hy
  have r0 : |alpha2 * unexposedMean p alpha1| < 1 / 5 := by rwa [abs_mul, abs_of_nonneg m0]
  filter_upwards [close_true (y := 0) (r := 1 / 10 ^ 7) (t := 1 / 5) (hy' 0) (by
      simp only [Matrix.cons_val, sub_zero, abs_zero, mul_zero, add_zero]
      exact r0),
    close_true (y := 5 + 5 * c) (r := 1 / 10 ^ 7) (t := 1 / 5) (hy' 1) (by
      simp only [Matrix.cons_val, add_sub_cancel_left]
      have : 0 ≤ 1 / 10 ^ 7 * |5 + 5 * c| := by positivity
      linarith),
    close_true (y := alpha2 * p) (r := 1 / 10 ^ 7) (t := 1 / 5) (hy' 2) (by
      simp only [Matrix.cons_val]
      rw [← mul_sub, abs_mul]
      have : 0 ≤ 1 / 10 ^ 7 * |alpha2 * p| := by positivity
      nlinarith [abs_nonneg alpha2, abs_nonneg (exposedMean p alpha1 - p)]),
    close_true (y := 5 + 5 * c + alpha2) (r := 1 / 10 ^ 7) (t := 1 / 5) (hy' 3) (by
      simp only [Matrix.cons_val]
      have e : 5 + 5 * c + alpha2 * exposedMean p alpha1 - (5 + 5 * c + alpha2) = -(alpha2 * (1 - exposedMean p alpha1)) := by ring
      rw [e, abs_neg, abs_mul, abs_of_nonneg m1]
      have : 0 ≤ 1 / 10 ^ 7 * |5 + 5 * c + alpha2| := by positivity
      linarith)] with n k0 k1 k2 k3
  rw [allClose_four, k0, k1, k2, k3]
  rfl

/-- **C104** If one of these responses is further away, the probability that the test does not fail with an `AssertionError` tends to 0, although the parameter is fitted correctly. -/
theorem C104_front_door_fails (hN : RandomNumbers P U G) (ha : a ∈ Set.Ico (0 : ℝ) 1) (hb : b ∈ Set.Ico (0 : ℝ) 1) (hd : d ∈ Set.Ico (0 : ℝ) 1)
    (hR : R.IsRidgeIntercept SR lam) (hl : 0 ≤ lam) (h0 : SR ridge0) (v0 : V) {p alpha1 alpha2 : ℝ} (hp : p = 1 / 5 + 3 / 5 * a)
    (h1 : alpha1 = -(3 / 10) + 3 / 5 * d) (h2 : alpha2 = -(3 / 10) + 3 / 5 * e) (hfar : 1 / 5 < |alpha2| * unexposedMean p alpha1 ∨
      1 / 5 + 1 / 10 ^ 7 * |5 + 5 * c + alpha2| < |alpha2| * (1 - exposedMean p alpha1)) :
    Tendsto (fun n => P {ω | (testFrontDoor Numbers.gen R ridge0 n (Numbers.start [a, b, c, d, e] (fun i => U i ω) (fun i => G i ω) v0)).1 ≠ .ok false}) atTop (𝓝 0) := by
  refine front_outcome hN ha hb hd hR hl h0 v0 false ?_
  rw [← hp, ← h1, ← h2]
  intro y hy
  have hy' := tendsto_pi_nhds.1 hy
  rcases hfar with h | h
  · filter_upwards [close_false (y := 0) (r := 1 / 10 ^ 7) (t := 1 / 5) (hy' 0) (by
      simp only [Matrix.cons_val, sub_zero, abs_zero, mul_zero, add_zero]
      rw [abs_mul]
      exact h.trans_le (mul_le_mul_of_nonneg_left (le_abs_self _) (abs_nonneg _)))] with n k
    rw [allClose_four, k]
    simp only [Bool.false_and, Bool.and_false]
  · filter_upwards [close_false (y := 5 + 5 * c + alpha2) (r := 1 / 10 ^ 7) (t := 1 / 5) (hy' 3) (by
      simp only [Matrix.cons_val]
      have e : 5 + 5 * c + alpha2 * exposedMean p alpha1 - (5 + 5 * c + alpha2) = -(alpha2 * (1 - exposedMean p alpha1)) := by ring
      rw [e, abs_neg, abs_mul]
      exact h.trans_le (mul_le_mul_of_nonneg_left (le_abs_self _) (abs_nonneg _)))] with n k
    rw [allClose_four, k]
    simp only [Bool.false_and, Bool.and_false]

end

/-! ## The test of the AIPW parameter -/

section
variable {V Ω H Q : Type} {U G : ℕ → Ω → ℝ} {a b c : ℝ} {ridge0 : LinEst H ℝ} {logistic0 : Q} {C : Predictor Q ℝ} {F : Predictor (LinEst H ℝ) ℝ}

theorem back_numbers_at (n i : ℕ) (hi : i < n) (ω : Ω) (xs : List ℝ) : (followedBy xs (fun j => U j ω) (xs.length + i), followedBy xs (fun j => U j ω) (xs.length + n + i), G i ω) =
    numbersOf U G n i ω := by
  have h : ∀ j, followedBy xs (fun j => U j ω) (xs.length + j) = U j ω := by
    intro j
    unfold followedBy
    rw [List.getD_eq_default _ _ (by omega), Nat.add_sub_cancel_left]
  have hd : i / n = 0 := Nat.div_eq_of_lt hi
  have hm : i % n = i := Nat.mod_eq_of_lt hi
  rw [add_assoc xs.length n i, h, h]
  simp only [numbersOf, firstPos, secondPos, hd, hm]
  refine Prod.ext ?_ (Prod.ext ?_ rfl)
  · show U i ω = U _ ω
    congr 1; omega
  · show U (n + i) ω = U _ ω
    congr 1; omega

theorem testAipw_start (hv : Valid (1 / 5 + 3 / 5 * a) (-(3 / 10) + 3 / 5 * c)) (v0 : V) {S : SCM String ℝ (Numbers V)}
    (hS : backDoorScm Numbers.gen (1 / 5 + 3 / 5 * a) (10 * (-(3 / 10) + 3 / 5 * b)) (-(3 / 10) + 3 / 5 * c) = .ok S) {n : ℕ} {ω : Ω} {e' : AIPW (LinEst H ℝ) Q ℝ}
    (hf : AIPW.fit F C (Obs.dataset 1 ((List.range n).map fun k => backUnit (1 / 5 + 3 / 5 * a) (10 * (-(3 / 10) + 3 / 5 * b)) (-(3 / 10) + 3 / 5 * c)
      (numbersOf U G n k ω))) (AIPW.new 1 ridge0 logistic0 5 (1 / 20)) = (.ok (), e')) :
    (testAipw Numbers.gen F C ridge0 logistic0 n (Numbers.start [a, b, c] (fun i => U i ω) (fun i => G i ω) v0)).1 =
      .ok (allClose e'.response.coef [10, 10 * (-(3 / 10) + 3 / 5 * b)] (1 / 10) 0) := by
  have hg := generate_back hv.le.1 hv.le.2 hS n { Numbers.start [a, b, c] (fun i => U i ω) (fun i => G i ω) v0 with i := 3 }
  have hu : ((List.range n).map fun i => backUnit (1 / 5 + 3 / 5 * a) (10 * (-(3 / 10) + 3 / 5 * b)) (-(3 / 10) + 3 / 5 * c)
      (followedBy [a, b, c] (fun i => U i ω) (3 + i), followedBy [a, b, c] (fun i => U i ω) (3 + n + i), G (0 + i) ω)) =
      (List.range n).map fun i => backUnit (1 / 5 + 3 / 5 * a) (10 * (-(3 / 10) + 3 / 5 * b)) (-(3 / 10) + 3 / 5 * c) (numbersOf U G n i ω) := by
    refine List.map_congr_left fun i hi => ?_
    rw [Nat.zero_add]
    exact congrArg _ (back_numbers_at n i (List.mem_range.1 hi) ω [a, b, c])
  unfold testAipw
  erw [Py.bind_apply]
  rw [backDoor_start, hS]
  simp only [Except.map]
  rw [Py.bind_apply, hg]
  simp only [Numbers.start]
  rw [hu]
  simp only [Py.bind_apply, Py.lift]
  rw [hf]
  rfl

theorem coef_two {m : LinEst H ℝ} {fit : LinEst H ℝ → List (List ℝ) → List ℝ → Except PyErr Unit × LinEst H ℝ} {clone : LinEst H ℝ → LinEst H ℝ} {d : Fin 2 → ℝ}
    (hlen : m.coef.length = 2) (h : ∀ r, r.length = 2 → (LinEst.predictor (fun x => x) fit clone).predict m r = linearValue d r) : m.coef = [d 0, d 1] := by
  obtain ⟨x, y, hxy⟩ := List.length_eq_two.1 hlen
  have h0 := h [0, 0] rfl
  have h1 := h [1, 0] rfl
  have h2 := h [0, 1] rfl
  simp [LinEst.predictor, hxy, linearValue] at h0 h1 h2
  rw [h0, add_zero] at h1 h2
  rw [hxy, h1, h2]

variable [MeasurableSpace Ω] {P : Measure Ω} [IsProbabilityMeasure P] {SR : LinEst H ℝ → Prop} {SC : Q → Prop} {lam : ℝ}
  {fit : LinEst H ℝ → List (List ℝ) → List ℝ → Except PyErr Unit × LinEst H ℝ} {clone : LinEst H ℝ → LinEst H ℝ}

/-- **C104** `test_AIPWLinearLogistic`, whatever parameters the SCM has, except `beta = 0`: the probability that it does not pass with `n` units tends to 0 as `n` grows.  The response
is a ridge regression without intercept whose `coef_` has one entry per column; the propensity is a logistic regression. -/
theorem C104_aipw_passes (hN : RandomNumbers P U G) (ha : a ∈ Set.Ico (0 : ℝ) 1) (hb : b ≠ 1 / 2) (hc : c ∈ Set.Ico (0 : ℝ) 1)
    (hR : (LinEst.predictor (fun x => x) fit clone).IsRidge SR lam) (hcoef : ∀ m rows ys m', fit m rows ys = (.ok (), m') → ∀ r ∈ rows, r.length = m'.coef.length)
    (hl : 0 ≤ lam) (hC : C.IsLogistic SC) (h0 : SR ridge0) (h1 : SC logistic0) (v0 : V) :
    Tendsto (fun n => P {ω | (testAipw Numbers.gen (LinEst.predictor (fun x => x) fit clone) C ridge0 logistic0 n
      (Numbers.start [a, b, c] (fun i => U i ω) (fun i => G i ω) v0)).1 ≠ .ok true}) atTop (𝓝 0) := by
  have hv := valid_of_draws ha hc
  have hT := numbersOf_measurable hN 1 0
  have hL := numbersOf_law hN one_pos 0
  obtain ⟨S, hS, -⟩ := C65_backdoor_sampler (Numbers.gen (V := V)) (1 / 5 + 3 / 5 * a) (10 * (-(3 / 10) + 3 / 5 * b)) (-(3 / 10) + 3 / 5 * c) hv.le.1 hv.le.2
  have hVm : AEMeasurable (fun ω => (backUnit (1 / 5 + 3 / 5 * a) (10 * (-(3 / 10) + 3 / 5 * b)) (-(3 / 10) + 3 / 5 * c) (numbersOf U G 1 0 ω)).point 1) P :=
    (back_measurable hT hL hv).aemeasurable
  have hbin0 : ∀ᵐ ω ∂P, ((backUnit (1 / 5 + 3 / 5 * a) (10 * (-(3 / 10) + 3 / 5 * b)) (-(3 / 10) + 3 / 5 * c) (numbersOf U G 1 0 ω)).point 1).2.1 = 0 ∨
      ((backUnit (1 / 5 + 3 / 5 * a) (10 * (-(3 / 10) + 3 / 5 * b)) (-(3 / 10) + 3 / 5 * c) (numbersOf U G 1 0 ω)).point 1).2.1 = 1 :=
    Eventually.of_forall fun ω => back_binary (beta := 10 * (-(3 / 10) + 3 / 5 * b)) hT hL hv _
  obtain ⟨q0, q1⟩ := (back_logistic (beta := 10 * (-(3 / 10) + 3 / 5 * b)) hT hL hv).both hVm hbin0 fun j => (back_memLp_z hT hL hv j 1).integrable le_rfl
  refine tendsto_of_tendsto_of_tendsto_of_le_of_le tendsto_const_nhds
    (AIPW.fit_likely (k := 1) (Good := fun e' => allClose e'.response.coef [10, 10 * (-(3 / 10) + 3 / 5 * b)] (1 / 10) 0 = true) one_pos hR hl hC (μ := 5) (κ := 1 / 20) (by norm_num)
      (e0 := AIPW.new 1 ridge0 logistic0 5 (1 / 20)) ⟨rfl, h0, h1, rfl, rfl⟩
      (X := fun n k ω => backUnit (1 / 5 + 3 / 5 * a) (10 * (-(3 / 10) + 3 / 5 * b)) (-(3 / 10) + 3 / 5 * c) (numbersOf U G n k ω))
      (Y := fun ω => (backUnit (1 / 5 + 3 / 5 * a) (10 * (-(3 / 10) + 3 / 5 * b)) (-(3 / 10) + 3 / 5 * c) (numbersOf U G 1 0 ω)).point 1)
      (fun n hn => (numbersOf_iid hN hn).comp (unit_measurable _ _ _))
      (fun n hn => IdentDistrib.comp (u := fun q => (backUnit (1 / 5 + 3 / 5 * a) (10 * (-(3 / 10) + 3 / 5 * b)) (-(3 / 10) + 3 / 5 * c) q).point 1)
        ⟨(numbersOf_measurable hN n 0).aemeasurable, hT.aemeasurable, (numbersOf_law hN hn 0).trans hL.symm⟩ (unit_measurable _ _ _))
      (fun n k ω => back_binary hT hL hv _) (fun n k ω => rfl) q0 q1 (back_memLp_regressor hT hL hv 0 2) (fun j => back_memLp_regressor hT hL hv j 4)
      (back_memLp_y hT hL hv 4 (by norm_num)) (back_nondegenerate hT hL hv) (back_leastSquares hT hL hv) ?_) (fun n => zero_le) (fun n => measure_mono fun ω hω hc => hω ?_)
  · intro es us d hd hlim
    have t0 := (tendsto_pi_nhds.1 hlim) 0
    have t1 := (tendsto_pi_nhds.1 hlim) 1
    simp only [Matrix.cons_val] at t0 t1
    have hb' : 10 * (-(3 / 10) + 3 / 5 * b) ≠ 0 := by
      intro h
      exact hb (by linarith)
    filter_upwards [hd, close_true (y := 10) (r := 1 / 10) (t := 0) t0 (by norm_num), close_true (y := 10 * (-(3 / 10) + 3 / 5 * b)) (r := 1 / 10) (t := 0) t1 (by
      rw [sub_self, abs_zero, zero_add]
      have := abs_pos.2 hb'
      positivity)] with n p1 p2 p3
    obtain ⟨n1, n2, n3, n4⟩ := p1
    have hlen : (es n).response.coef.length = 2 := by
      obtain ⟨u, l, hu⟩ := List.exists_cons_of_ne_nil n1
      have hmem : u ∈ us n := by rw [hu]; exact List.mem_cons_self
      rw [← hcoef _ _ _ _ n3 (u.xv :: u.zv) (List.mem_map.2 ⟨u, hmem, rfl⟩)]
      simp [Obs.zv, n2 u hmem]
    show allClose _ _ _ _ = true
    rw [coef_two hlen n4]
    simp only [allClose, List.length_cons, List.length_nil, List.zipWith_cons_cons, List.zipWith_nil_left, List.all_cons, List.all_nil, id]
    rw [p2, p3]
    rfl
  · obtain ⟨e', h1, h2⟩ := hc
    rw [testAipw_start hv v0 hS h1, h2]

end

/-- **C104** What the names say: in the population of the front-door example, the mean of the confounder (the first covariate) times the exposure is `exposedMean` times the mean of the
exposure, and likewise for units that are not exposed. -/
theorem C104_confounder_means {Ω : Type} [MeasurableSpace Ω] {P : Measure Ω} [IsProbabilityMeasure P] {U G : ℕ → Ω → ℝ} (hN : RandomNumbers P U G) {p beta gamma alpha1 alpha2 : ℝ}
    (hp : 0 < p ∧ p < 1) :
    ∫ ω, ((frontUnitOf p beta gamma alpha1 alpha2 (fourNumbers U G 1 0 ω)).point 2).1 0 * ((frontUnitOf p beta gamma alpha1 alpha2 (fourNumbers U G 1 0 ω)).point 2).2.1 ∂P =
      exposedMean p alpha1 * ∫ ω, ((frontUnitOf p beta gamma alpha1 alpha2 (fourNumbers U G 1 0 ω)).point 2).2.1 ∂P ∧
    ∫ ω, ((frontUnitOf p beta gamma alpha1 alpha2 (fourNumbers U G 1 0 ω)).point 2).1 0 * (1 - ((frontUnitOf p beta gamma alpha1 alpha2 (fourNumbers U G 1 0 ω)).point 2).2.1) ∂P =
      unexposedMean p alpha1 * ∫ ω, (1 - ((frontUnitOf p beta gamma alpha1 alpha2 (fourNumbers U G 1 0 ω)).point 2).2.1) ∂P := by
  have hT := fourNumbers_measurable hN 1 0
  have hL := fourNumbers_law hN one_pos 0
  have hl : 0 < logistic alpha1 ∧ logistic alpha1 < 1 := by
    rw [← sigmoid_logistic]
    exact ⟨Real.sigmoid_pos _, Real.sigmoid_lt_one _⟩
  have e : ∀ ω, (frontUnitOf p beta gamma alpha1 alpha2 (fourNumbers U G 1 0 ω)).point 2 = (completeUnit p beta gamma alpha1 alpha2 (fourNumbers U G 1 0 ω)).point 2 := fun _ => rfl
  simp only [e, completeUnit_point]
  have q1 : 0 < p * logistic alpha1 := mul_pos hp.1 hl.1
  have q2 : 0 < p * (1 - logistic alpha1) := mul_pos hp.1 (by linarith [hl.2])
  have q3 : 0 < (1 - p) / 2 := by linarith [hp.2]
  have n1 : p * logistic alpha1 + (1 - p) / 2 ≠ 0 := by linarith
  have n2 : p * (1 - logistic alpha1) + (1 - p) / 2 ≠ 0 := by linarith
  constructor
  · refine (table3_integral (beta := beta) (alpha1 := alpha1) hT hL ⟨hp.1.le, hp.2.le⟩ fun u x _ => u * x).trans (Eq.trans ?_ (congrArg _ (table3_integral (beta := beta) (alpha1 := alpha1) hT hL ⟨hp.1.le, hp.2.le⟩ fun _ x _ => x).symm))
    unfold exposedMean
    refine Eq.trans ?_ (div_mul_eq_mul_div _ _ _).symm
    refine (eq_div_iff n1).2 ?_
    ring
  · refine (table3_integral (beta := beta) (alpha1 := alpha1) hT hL ⟨hp.1.le, hp.2.le⟩ fun u x _ => u * (1 - x)).trans (Eq.trans ?_ (congrArg _ (table3_integral (beta := beta) (alpha1 := alpha1) hT hL ⟨hp.1.le, hp.2.le⟩ fun _ x _ => 1 - x).symm))
    unfold unexposedMean
    refine Eq.trans ?_ (div_mul_eq_mul_div _ _ _).symm
    refine (eq_div_iff n2).2 ?_
    ring

/-! ## Examples -/

open NumbersDemo in
/-- non-vacuity of `C104_front_door_passes`: no effect of the confounder on the response -/
example {V : Type} (v0 : V) : Tendsto (fun n => space {ω | (testFrontDoor Numbers.gen (idealRidgeIntercept 1) (fun _ => 0) n
    (Numbers.start [1 / 3, 1 / 4, 2 / 3, 1 / 2, 1 / 2] (fun i => ω (.inl i)) (fun i => ω (.inr i)) v0)).1 ≠ .ok true}) atTop (𝓝 0) :=
  C104_front_door_passes (SR := fun _ => True) (p := 2 / 5) (alpha1 := 0) (alpha2 := 0) randomNumbers (by norm_num) (by norm_num) (by norm_num) (by norm_num)
    (idealRidgeIntercept_isRidge one_pos) zero_le_one trivial v0 (by norm_num) (by norm_num) (by norm_num) (by norm_num) (by norm_num)

theorem logistic_zero : logistic 0 = 1 / 2 := logistic_half.2 rfl

open NumbersDemo in
/-- non-vacuity of `C104_front_door_passes`: an effect of the confounder on the response -/
example {V : Type} (v0 : V) : Tendsto (fun n => space {ω | (testFrontDoor Numbers.gen (idealRidgeIntercept 1) (fun _ => 0) n
    (Numbers.start [1 / 2, 1 / 4, 2 / 3, 1 / 2, 3 / 4] (fun i => ω (.inl i)) (fun i => ω (.inr i)) v0)).1 ≠ .ok true}) atTop (𝓝 0) :=
  C104_front_door_passes (SR := fun _ => True) (p := 1 / 2) (alpha1 := 0) (alpha2 := 3 / 20) randomNumbers (by norm_num) (by norm_num) (by norm_num) (by norm_num)
    (idealRidgeIntercept_isRidge one_pos) zero_le_one trivial v0 (by norm_num) (by norm_num) (by norm_num) (by rw [unexposedMean, logistic_zero]; norm_num [abs_of_pos])
    (by rw [exposedMean, logistic_zero]; norm_num [abs_of_pos])

open NumbersDemo in
/-- non-vacuity of `C104_front_door_fails`: a frequent confounder with an effect near the end of its range -/
example {V : Type} (v0 : V) : Tendsto (fun n => space {ω | (testFrontDoor Numbers.gen (idealRidgeIntercept 1) (fun _ => 0) n
    (Numbers.start [19 / 20, 1 / 4, 2 / 3, 1 / 2, 19 / 20] (fun i => ω (.inl i)) (fun i => ω (.inr i)) v0)).1 ≠ .ok false}) atTop (𝓝 0) :=
  C104_front_door_fails (SR := fun _ => True) (p := 77 / 100) (alpha1 := 0) (alpha2 := 27 / 100) randomNumbers (by norm_num) (by norm_num) (by norm_num)
    (idealRidgeIntercept_isRidge one_pos) zero_le_one trivial v0 (by norm_num) (by norm_num) (by norm_num)
    (Or.inl (by rw [unexposedMean, logistic_zero]; norm_num [abs_of_pos]))

/-- a ridge regression with its coefficients -/
noncomputable def coefFit (alpha : ℝ) (m : LinEst Unit ℝ) (rows : List (List ℝ)) (ys : List ℝ) : Except PyErr Unit × LinEst Unit ℝ :=
  if ∀ r ∈ rows, r.length = (rows.headD []).length then
    (.ok (), ⟨List.ofFn (Classical.epsilon fun b : Fin (rows.headD []).length → ℝ => ∀ c : Fin (rows.headD []).length → ℝ, ridgeObjective alpha rows ys b ≤ ridgeObjective alpha rows ys c), 0, ()⟩)
  else (.error .valueError, m)

theorem zipWith_ofFn {d : ℕ} (b : Fin d → ℝ) : ∀ r : List ℝ, r.length = d → (List.zipWith (· * ·) (List.ofFn b) r).sum = linearValue b r := by
  induction d with
  | zero => intro r _; simp [linearValue]
  | succ d ih =>
    intro r hr
    match r, hr with
    | x :: r, hr =>
      rw [List.ofFn_succ, List.zipWith_cons_cons, List.sum_cons, ih (fun j => b j.succ) r (by simpa using hr)]
      simp [linearValue, Fin.sum_univ_succ]

theorem coefFit_isRidge {alpha : ℝ} (ha : 0 < alpha) : (LinEst.predictor (fun x => x) (coefFit alpha) fun m => m).IsRidge (fun _ => True) alpha := by
  intro m d rows ys _ _ hne _ hd
  have hh : (rows.headD []).length = d := by
    cases rows with
    | nil => exact absurd rfl hne
    | cons r rows => exact hd r (by simp)
  subst hh
  refine ⟨_, _, if_pos hd, trivial, fun r hr => ?_, Classical.epsilon_spec (exists_ridge ha rows ys)⟩
  show (List.zipWith (· * ·) (List.ofFn _) r).sum + 0 = _
  rw [add_zero]
  exact zipWith_ofFn _ r hr

open NumbersDemo in
/-- non-vacuity of `C104_aipw_passes` -/
example {V : Type} (v0 : V) : Tendsto (fun n => space {ω | (testAipw Numbers.gen (LinEst.predictor (fun x => x) (coefFit 1) fun m => m) idealLogistic ⟨[], 0, ()⟩ (fun _ => 0) n
    (Numbers.start [1 / 3, 1 / 4, 2 / 3] (fun i => ω (.inl i)) (fun i => ω (.inr i)) v0)).1 ≠ .ok true}) atTop (𝓝 0) :=
  C104_aipw_passes (SR := fun _ => True) (SC := fun _ => True) randomNumbers (by norm_num) (by norm_num) (by norm_num) (coefFit_isRidge one_pos)
    (by
      intro m rows ys m' h r hr
      unfold coefFit at h
      split at h
      · rename_i hc
        obtain rfl := (Prod.mk.inj h).2
        simpa using hc r hr
      · simp at h) zero_le_one idealLogistic_isLogistic trivial trivial v0

open NumbersDemo in
/-- non-vacuity of `C104_confounder_means` -/
example := C104_confounder_means randomNumbers (p := 1 / 2) (beta := 1) (gamma := 5) (alpha1 := 1 / 5) (alpha2 := 0) (by norm_num)

end ParametersTest
end Verif
