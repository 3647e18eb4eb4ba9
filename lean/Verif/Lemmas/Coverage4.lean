import Verif.Lemmas.Coverage3
import Verif.Lemmas.Arms6
import Mathlib.Probability.Moments.SubGaussian
import Mathlib.Analysis.Real.Pi.Bounds

/-!
# Coverage of the finite-sample interval: bounds for the Gaussian limit and the limit itself
-/

set_option linter.unusedSectionVars false

namespace Verif
open MeasureTheory ProbabilityTheory Filter Topology

theorem gaussian_subG (v : NNReal) : HasSubgaussianMGF (id : ℝ → ℝ) v (gaussianReal 0 v) where
  integrable_exp_mul t := integrable_exp_mul_gaussianReal t
  mgf_le t := by rw [mgf_id_gaussianReal]; simp

/-- a Gaussian interval has large mass if it is wide -/
theorem gaussian_ge {w b δ : ℝ} (hw : 0 < w) (hb : 0 ≤ b) (h : 2 * Real.exp (-b ^ 2 / (2 * w)) ≤ δ) :
    ENNReal.ofReal (1 - δ) ≤ gaussianReal 0 w.toNNReal (Set.Icc (-b) b) := by
  set γ := gaussianReal 0 w.toNNReal
  have hwc : ((w.toNNReal : NNReal) : ℝ) = w := Real.coe_toNNReal _ hw.le
  have h1 : γ.real {x | b ≤ x} ≤ Real.exp (-b ^ 2 / (2 * w)) := by
    have := (gaussian_subG w.toNNReal).measure_ge_le hb
    rw [hwc] at this
    exact this
  have h2 : γ.real {x | x ≤ -b} ≤ Real.exp (-b ^ 2 / (2 * w)) := by
    have := (gaussian_subG w.toNNReal).neg.measure_ge_le hb
    rw [hwc] at this
    convert this using 3
    simp only [Pi.neg_apply, id_eq]
    funext x; apply propext
    constructor <;> intro h <;> linarith
  have h3 : γ.real (Set.Icc (-b) b)ᶜ ≤ δ := by
    refine (measureReal_mono ?_).trans ((measureReal_union_le {x | b ≤ x} {x | x ≤ -b}).trans (by linarith))
    intro x hx
    simp only [Set.mem_compl_iff, Set.mem_Icc, not_and_or, not_le] at hx
    rcases hx with hx | hx
    · right; exact hx.le
    · left; exact hx.le
  rw [probReal_compl_eq_one_sub measurableSet_Icc] at h3
  rw [← ofReal_measureReal]
  exact ENNReal.ofReal_le_ofReal (by linarith)

/-- a Gaussian interval has small mass if it is narrow -/
theorem gaussian_le {b : ℝ} : gaussianReal 0 1 (Set.Icc (-b) b) ≤ ENNReal.ofReal b := by
  rw [gaussianReal_apply 0 one_ne_zero]
  calc ∫⁻ x in Set.Icc (-b) b, gaussianPDF 0 1 x ≤ ∫⁻ _ in Set.Icc (-b) b, ENNReal.ofReal (1 / 2) := by
        refine lintegral_mono fun x => ENNReal.ofReal_le_ofReal ?_
        unfold gaussianPDFReal
        have h1 : Real.exp (-(x - 0) ^ 2 / (2 * ((1 : NNReal) : ℝ))) ≤ 1 := by
          apply Real.exp_le_one_iff.mpr
          have := sq_nonneg (x - 0)
          simp only [NNReal.coe_one]
          linarith
        have h2 : 2 ≤ √(2 * Real.pi * ((1 : NNReal) : ℝ)) := by
          apply Real.le_sqrt_of_sq_le
          simp only [NNReal.coe_one]
          linarith [Real.pi_gt_three]
        have h3 : (√(2 * Real.pi * ((1 : NNReal) : ℝ)))⁻¹ ≤ 1 / 2 := by
          rw [one_div]; exact inv_anti₀ (by norm_num) h2
        have h4 := Real.exp_pos (-(x - 0) ^ 2 / (2 * ((1 : NNReal) : ℝ)))
        have h5 : 0 ≤ (√(2 * Real.pi * ((1 : NNReal) : ℝ)))⁻¹ := by positivity
        calc _ ≤ 1 / 2 * (1 : ℝ) := mul_le_mul h3 h1 h4.le (by norm_num)
          _ = 1 / 2 := by ring
    _ = ENNReal.ofReal b := by
        rw [lintegral_const, Measure.restrict_apply MeasurableSet.univ, Set.univ_inter, Real.volume_Icc, ← ENNReal.ofReal_mul (by norm_num)]
        congr 1; ring

/-- a Gaussian interval has small mass if it is narrow, for any variance -/
theorem gaussian_le' {w b : ℝ} (hw : 0 < w) : gaussianReal 0 w.toNNReal (Set.Icc (-b) b) ≤ ENNReal.ofReal (b / √w) := by
  have hs : 0 < √w := Real.sqrt_pos.mpr hw
  have := gaussian_scale hw (-(b / √w)) (b / √w)
  rw [neg_mul, div_mul_cancel₀ _ hs.ne'] at this
  rw [this]
  exact gaussian_le

variable {Ω : Type} [MeasurableSpace Ω] {P : Measure Ω} [IsProbabilityMeasure P] {X : ℕ → Ω → ℝ}

/-- `√n` times the width of the finite-sample interval tends to this number -/
noncomputable def fsLimit (g τ δ : ℝ) : ℝ := 5 / 8 * (√(2 * g) + τ) * √(1 / 2 + Real.log (4 / δ))

theorem fsWidth_limit (g τ m δ : ℝ) (hg : 0 < g) (hm : 0 < m) :
    Tendsto (fun n : ℕ => √(n : ℝ) * fsHalfWidth g τ m δ n) atTop (𝓝 (fsLimit g τ δ)) := by
  have h := ((Arm.fsInner_tendsto g m δ hg hm).sqrt).const_mul (5 / 8 * (√(2 * g) + τ))
  refine h.congr' ?_
  filter_upwards [eventually_gt_atTop 0] with n hn
  have : 0 < √(n : ℝ) := Real.sqrt_pos.mpr (by exact_mod_cast hn)
  unfold fsHalfWidth
  field_simp

theorem log_four_div {δ : ℝ} (h0 : 0 < δ) (h1 : δ < 1) : 0 < 1 / 2 + Real.log (4 / δ) := by
  have : 0 < Real.log (4 / δ) := Real.log_pos (by rw [lt_div_iff₀ h0]; linarith)
  linarith

/-- convergence in distribution along a subsequence -/
theorem tid_comp {T : ℕ → Ω → ℝ} {v : NNReal} (hT : TendstoInDistribution T atTop (id : ℝ → ℝ) (fun _ => P) (gaussianReal 0 v))
    {N : ℕ → ℕ} (hN : Tendsto N atTop atTop) :
    TendstoInDistribution (fun n => T (N n)) atTop (id : ℝ → ℝ) (fun _ => P) (gaussianReal 0 v) where
  forall_aemeasurable i := hT.forall_aemeasurable (N i)
  aemeasurable_limit := aemeasurable_id
  tendsto := hT.tendsto.comp hN

/-- the finite-sample interval contains the variance exactly when the normalised error is small -/
theorem fs_covers {x v hw : ℝ} {n : ℕ} (hn : 0 < n) (hx : 0 ≤ x) :
    Fl.Covers (Fl.maxStep ((Fl.fin v).sub (.fin hw)) (.fin 0)) ((Fl.fin v).add (.fin hw)) x ↔
      -(√n * hw) ≤ √n * (v - x) ∧ √n * (v - x) ≤ √n * hw := by
  have hs : 0 < √(n : ℝ) := Real.sqrt_pos.mpr (by exact_mod_cast hn)
  unfold Fl.Covers
  show (Fl.maxStep (Fl.fin (v - hw)) (.fin 0)).le (.fin x) = true ∧ (Fl.fin x).le (.fin (v + hw)) = true ↔ _
  rw [maxStep_le' _ _ hx, fin_le', ← mul_neg, mul_le_mul_iff_of_pos_left hs, mul_le_mul_iff_of_pos_left hs]
  constructor <;> rintro ⟨a, b⟩ <;> constructor <;> linarith

end Verif

namespace Verif.Arm
open MeasureTheory ProbabilityTheory Filter Topology
variable {E β W Ω : Type} [MeasurableSpace Ω] {P : Measure Ω} [IsProbabilityMeasure P] {X : ℕ → Ω → ℝ}

/-- a finished update of a finite-sample arm, past the burn-in -/
theorem fs_closed {cfg : SSConfig β ℝ} {g τ m : ℝ} (hc : Numbers cfg g τ m) {ops : EtaOps E β ℝ} (hrep : ScoreRepeatable ops)
    {rng : Rng W ℝ} {d : ExpData β} {δ : ℝ} {s s' : ArmState E β ℝ} {w w' : W} {lo hi : Fl ℝ}
    (h : ssUpdate cfg ops realLib rng d (.fin δ) (s, w) = (.ok (lo, hi), s', w')) {xs : List ℝ} (hx : EvaluatedOn ops s' xs) {ew : ℝ}
    (hew : ops.csWidth s'.eta (.fin (δ / 2)) cfg.etaSubG cfg.rho = .ok (some (.fin ew))) :
    0 < δ ∧ δ < 1 ∧ xs ≠ [] ∧ 0 < g ∧ 0 < τ ∧ 1 < m ∧ (m ≤ xs.length → 0 ≤ fsInner g m δ xs.length →
      lo = Fl.maxStep ((Fl.fin (pvar xs)).sub (.fin (fsHalfWidth g τ m δ xs.length + ew ^ 2))) (.fin 0) ∧
      hi = (Fl.fin (pvar xs)).add (.fin (fsHalfWidth g τ m δ xs.length + ew ^ 2))) := by
  obtain ⟨h0, h1, hne, -, a1, a2, a3, h2⟩ := finite_evaluated hc.alg hrep h hx hew
  rw [hc.τ] at a1
  rw [hc.m] at a2
  rw [hc.g] at a3
  have b1 : 0 < τ := by
    rw [Bool.eq_false_iff, Ne, fin_le'] at a1; exact not_le.mp a1
  have b2 : 1 < m := by
    rw [Bool.eq_false_iff, Ne, fin_le'] at a2; exact not_le.mp a2
  have b3 : 0 < g := by
    rw [Bool.eq_false_iff, Ne, fin_le'] at a3; exact not_le.mp a3
  refine ⟨h0, h1, hne, b3, b1, b2, fun hm hin => ?_⟩
  have hlt : (Fl.fin (xs.length : ℝ)).lt cfg.burnIn = false := by
    rw [hc.m]; simpa [Fl.lt] using hm
  have h3 := h2 hlt
  rw [hc.g, hc.τ, hc.m, fsWidth_eq g τ m δ xs.length _ b3 b2 h0 (List.length_pos_iff.mpr hne), if_neg (not_lt.mpr hin)] at h3
  have e : (Fl.fin (fsHalfWidth g τ m δ xs.length)).add (Fl.fin ew).sq = Fl.fin (fsHalfWidth g τ m δ xs.length + ew ^ 2) := by
    show Fl.fin (fsHalfWidth g τ m δ xs.length + ew * ew) = _
    rw [pow_two]
  rw [e] at h3
  exact h3

/-- the coverage of the finite-sample interval has a limit -/
theorem fs_limit (hX : Iid P X) (h4 : MemLp (X 0) 4 P) (hw : varOfSq P (X 0) ≠ 0) {cfg : SSConfig β ℝ} {g τ m : ℝ}
    (hc : Numbers cfg g τ m) {ops : EtaOps E β ℝ} (hrep : ScoreRepeatable ops) {rng : Rng W ℝ}
    {δ : ℝ} {N : ℕ → ℕ} (hN : Tendsto N atTop atTop)
    {d : ℕ → Ω → ExpData β} {s s' : ℕ → Ω → ArmState E β ℝ} {w w' : ℕ → Ω → W} {lo hi : ℕ → Ω → Fl ℝ}
    (hup : ∀ n ω, ssUpdate cfg ops realLib rng (d n ω) (.fin δ) (s n ω, w n ω) = (.ok (lo n ω, hi n ω), s' n ω, w' n ω))
    (hev : ∀ n ω, EvaluatedOn ops (s' n ω) (sample X (N n) ω)) {ew : ℕ → ℝ}
    (hew : ∀ n ω, ops.csWidth (s' n ω).eta (.fin (δ / 2)) cfg.etaSubG cfg.rho = .ok (some (.fin (ew n))))
    (hew0 : Tendsto (fun n => √(N n : ℝ) * ew n ^ 2) atTop (𝓝 0)) :
    (0 < δ ∧ δ < 1 ∧ 0 < g ∧ 0 < τ ∧ 1 < m) ∧
    Tendsto (fun n => P {ω | Fl.Covers (lo n ω) (hi n ω) Var[X 0; P]}) atTop
      (𝓝 (gaussianReal 0 (varOfSq P (X 0)).toNNReal (Set.Icc (-fsLimit g τ δ) (fsLimit g τ δ)))) := by
  obtain ⟨ω0⟩ : Nonempty Ω := P.nonempty_of_neZero
  obtain ⟨h0, h1, -, hg, hτ, hm, -⟩ := fs_closed hc hrep (hup 0 ω0) (hev 0 ω0) (hew 0 ω0)
  refine ⟨⟨h0, h1, hg, hτ, hm⟩, ?_⟩
  have hw0 : 0 < varOfSq P (X 0) := lt_of_le_of_ne (variance_nonneg _ _) hw.symm
  have hv : (varOfSq P (X 0)).toNNReal ≠ 0 := (Real.toNNReal_pos.mpr hw0).ne'
  have hT := tid_comp (hX.clt_var h4 (Z := (id : ℝ → ℝ)) (P' := gaussianReal 0 (varOfSq P (X 0)).toNNReal)
      ⟨aemeasurable_id, by simp⟩) hN
  have hwid : Tendsto (fun n => √(N n : ℝ) * (fsHalfWidth g τ m δ (N n) + ew n ^ 2)) atTop (𝓝 (fsLimit g τ δ)) := by
    have := ((fsWidth_limit g τ m δ hg (by linarith)).comp hN).add hew0
    rw [add_zero] at this
    refine this.congr fun n => ?_
    simp only [Function.comp_apply]
    ring
  have hlim := between_limit (P := P) hv hT
    (A := fun n _ => -(√(N n : ℝ) * (fsHalfWidth g τ m δ (N n) + ew n ^ 2))) (B := fun n _ => √(N n : ℝ) * (fsHalfWidth g τ m δ (N n) + ew n ^ 2))
    (a := -fsLimit g τ δ) (b := fsLimit g τ δ)
    (fun n => aemeasurable_const) (fun n => aemeasurable_const)
    (Eventually.of_forall fun ω => ⟨hwid.neg, hwid⟩)
  refine hlim.congr' ?_
  have hpos : ∀ᶠ n : ℕ in atTop, 0 < fsInner g m δ (N n) :=
    hN.eventually ((fsInner_tendsto g m δ hg (by linarith)).eventually (lt_mem_nhds (log_four_div h0 h1)))
  filter_upwards [hpos, hN.eventually (eventually_ge_atTop ⌈m⌉₊), hN.eventually (eventually_gt_atTop 0)] with n hn1 hn2 hn3
  congr 1
  ext ω
  simp only [Set.mem_ofPred_eq]
  obtain ⟨-, -, -, -, -, -, hcl⟩ := fs_closed hc hrep (hup n ω) (hev n ω) (hew n ω)
  have hl : (sample X (N n) ω).length = N n := by simp [sample]
  rw [hl] at hcl
  obtain ⟨e1, e2⟩ := hcl ((Nat.le_ceil m).trans (by exact_mod_cast hn2)) hn1.le
  rw [e1, e2]
  exact (fs_covers hn3 (variance_nonneg _ _)).symm

end Verif.Arm
