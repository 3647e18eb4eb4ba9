import Verif.Spec.Coverage
import Verif.Lemmas.RealLib
import Mathlib.Probability.StrongLaw
import Mathlib.Probability.CentralLimitTheorem
import Mathlib.MeasureTheory.Function.ConvergenceInDistribution
import Mathlib.Probability.Independence.Integration
import Mathlib.Probability.Moments.Variance

/-!
# The limit of the sample variance
-/

set_option linter.unusedSectionVars false

namespace Verif
open MeasureTheory ProbabilityTheory Filter Topology

theorem pmean_range (f : ℕ → ℝ) (n : ℕ) : pmean ((List.range n).map f) = (∑ i ∈ Finset.range n, f i) / n := by
  unfold pmean
  rw [List.length_map, List.length_range]
  rfl

section
variable {Ω : Type} {X : ℕ → Ω → ℝ} {n : ℕ} {ω : Ω}

theorem pmean_sample : pmean (sample X n ω) = (∑ i ∈ Finset.range n, X i ω) / n := pmean_range _ _

theorem sqDevs_sample : sqDevs (sample X n ω) = (List.range n).map fun i => (X i ω - pmean (sample X n ω)) ^ 2 := by
  unfold sqDevs sample
  rw [List.map_map]
  rfl

theorem pvar_sample : pvar (sample X n ω) = (∑ i ∈ Finset.range n, (X i ω - pmean (sample X n ω)) ^ 2) / n := by
  rw [← pmean_range, ← sqDevs_sample]
  rfl

theorem pvarSq_sample : pvar (sqDevs (sample X n ω)) =
    (∑ i ∈ Finset.range n, ((X i ω - pmean (sample X n ω)) ^ 2 - pvar (sample X n ω)) ^ 2) / n := by
  have h : pmean (sqDevs (sample X n ω)) = pvar (sample X n ω) := rfl
  unfold pvar
  rw [h, sqDevs_sample, List.map_map]
  exact pmean_range (fun i => ((X i ω - pmean (sample X n ω)) ^ 2 - pvar (sample X n ω)) ^ 2) n

/-- the sample variance around any centre -/
theorem pvar_shift (hn : n ≠ 0) (m : ℝ) :
    pvar (sample X n ω) = (∑ i ∈ Finset.range n, (X i ω - m) ^ 2) / n - (pmean (sample X n ω) - m) ^ 2 := by
  rw [pvar_sample]
  have hn' : (n : ℝ) ≠ 0 := by exact_mod_cast hn
  set c := pmean (sample X n ω)
  have hc : ∑ i ∈ Finset.range n, X i ω = n * c := by
    rw [show c = _ from pmean_sample]; field_simp
  have h1 : ∀ i, (X i ω - c) ^ 2 = (X i ω - m) ^ 2 - 2 * (c - m) * X i ω + (c ^ 2 - m ^ 2) := fun i => by ring
  simp only [h1, Finset.sum_add_distrib, Finset.sum_sub_distrib, ← Finset.mul_sum, hc, Finset.sum_const, Finset.card_range, nsmul_eq_mul]
  field_simp
  ring

/-- the fourth central moment of the sample around any centre -/
theorem pvarSq_shift (hn : n ≠ 0) (m : ℝ) :
    pvar (sqDevs (sample X n ω)) = (∑ i ∈ Finset.range n, (X i ω - m) ^ 4) / n
      - 4 * (pmean (sample X n ω) - m) * ((∑ i ∈ Finset.range n, (X i ω - m) ^ 3) / n)
      + 6 * (pmean (sample X n ω) - m) ^ 2 * ((∑ i ∈ Finset.range n, (X i ω - m) ^ 2) / n)
      - 3 * (pmean (sample X n ω) - m) ^ 4 - pvar (sample X n ω) ^ 2 := by
  rw [pvarSq_sample]
  have hn' : (n : ℝ) ≠ 0 := by exact_mod_cast hn
  have hv : ∑ i ∈ Finset.range n, (X i ω - pmean (sample X n ω)) ^ 2 = n * pvar (sample X n ω) := by
    rw [pvar_sample]; field_simp
  set c := pmean (sample X n ω)
  set v := pvar (sample X n ω)
  have hc : ∑ i ∈ Finset.range n, X i ω = n * c := by
    rw [show c = _ from pmean_sample]; field_simp
  have hcm : ∑ i ∈ Finset.range n, (X i ω - m) = n * (c - m) := by
    rw [Finset.sum_sub_distrib, hc]; simp; ring
  have h1 : ∀ i, ((X i ω - c) ^ 2 - v) ^ 2 = (X i ω - m) ^ 4 - 4 * (c - m) * (X i ω - m) ^ 3 + 6 * (c - m) ^ 2 * (X i ω - m) ^ 2
      - 4 * (c - m) ^ 3 * (X i ω - m) + (c - m) ^ 4 - 2 * v * (X i ω - c) ^ 2 + v ^ 2 := fun i => by ring
  simp only [h1, Finset.sum_add_distrib, Finset.sum_sub_distrib, ← Finset.mul_sum, hv, hcm, Finset.sum_const, Finset.card_range, nsmul_eq_mul]
  field_simp
  ring

end

section
variable {Ω : Type} [MeasurableSpace Ω] {P : Measure Ω} [IsProbabilityMeasure P] {X : ℕ → Ω → ℝ}

/-- functions of iid observations are iid -/
theorem Iid.comp {T T' : Type} [MeasurableSpace T] [MeasurableSpace T'] {X : ℕ → Ω → T} (h : Iid P X) {f : T → T'} (hf : Measurable f) :
    Iid P fun i ω => f (X i ω) :=
  ⟨h.indep.comp (fun _ => f) fun _ => hf, fun i => (h.ident i).comp hf⟩

theorem Iid.slln {T : Type} [MeasurableSpace T] {X : ℕ → Ω → T} (h : Iid P X) {f : T → ℝ} (hf : Measurable f) (hi : Integrable (fun ω => f (X 0 ω)) P) :
    ∀ᵐ ω ∂P, Tendsto (fun n : ℕ => (∑ i ∈ Finset.range n, f (X i ω)) / n) atTop (𝓝 (∫ ω, f (X 0 ω) ∂P)) :=
  strong_law_ae_real (fun i ω => f (X i ω)) hi (fun _ _ hij => (h.comp hf).indep.indepFun hij) (h.comp hf).ident

/-- the powers up to four of the deviation are integrable -/
theorem int_pow (h4 : MemLp (X 0) 4 P) (m : ℝ) {k : ℕ} (hk : k ≤ 4) : Integrable (fun ω => (X 0 ω - m) ^ k) P := by
  have h : MemLp (fun ω => X 0 ω - m) 4 P := h4.sub (memLp_const m)
  rcases Nat.eq_zero_or_pos k with rfl | hk0
  · simp
  have h' : MemLp (fun ω => X 0 ω - m) k P := h.mono_exponent (by exact_mod_cast hk)
  have := h'.integrable_norm_pow (by omega)
  refine (this.mono' ?_ ?_)
  · exact (h.1.pow k)
  · filter_upwards with ω
    rw [norm_pow]

theorem variance_eq' (h4 : MemLp (X 0) 4 P) : Var[X 0; P] = ∫ ω, (X 0 ω - P[X 0]) ^ 2 ∂P :=
  variance_eq_integral h4.1.aemeasurable

theorem memLp_sq (h4 : MemLp (X 0) 4 P) : MemLp (fun ω => (X 0 ω - P[X 0]) ^ 2) 2 P := by
  rw [memLp_two_iff_integrable_sq]
  · have := int_pow h4 P[X 0] (k := 4) le_rfl
    refine this.congr (Filter.Eventually.of_forall fun ω => ?_)
    simp only
    ring
  · exact ((h4.1.sub aestronglyMeasurable_const).pow 2)

theorem wvar_eq (h4 : MemLp (X 0) 4 P) : varOfSq P (X 0) = (∫ ω, (X 0 ω - P[X 0]) ^ 4 ∂P) - Var[X 0; P] ^ 2 := by
  unfold varOfSq
  rw [variance_eq_sub (memLp_sq h4), ← variance_eq' h4]
  congr 1
  refine integral_congr_ae (Filter.Eventually.of_forall fun ω => ?_)
  simp only [Pi.pow_apply]
  ring

/-- **consistency** the sample mean, the sample variance and the variance of the squared deviations converge -/
theorem Iid.consistent (h : Iid P X) (h4 : MemLp (X 0) 4 P) : ∀ᵐ ω ∂P,
    Tendsto (fun n => pmean (sample X n ω)) atTop (𝓝 P[X 0]) ∧
    Tendsto (fun n => pvar (sample X n ω)) atTop (𝓝 Var[X 0; P]) ∧
    Tendsto (fun n => pvar (sqDevs (sample X n ω))) atTop (𝓝 (varOfSq P (X 0))) := by
  have s1 := h.slln (f := id) measurable_id (by simpa using int_pow h4 0 (k := 1) (by omega))
  have s2 := h.slln (f := fun x => (x - P[X 0]) ^ 2) (by fun_prop) (int_pow h4 _ (by omega))
  have s3 := h.slln (f := fun x => (x - P[X 0]) ^ 3) (by fun_prop) (int_pow h4 _ (by omega))
  have s4 := h.slln (f := fun x => (x - P[X 0]) ^ 4) (by fun_prop) (int_pow h4 _ (by omega))
  filter_upwards [s1, s2, s3, s4] with ω t1 t2 t3 t4
  have c1 : Tendsto (fun n => pmean (sample X n ω)) atTop (𝓝 P[X 0]) := by
    simpa only [pmean_sample, id] using t1
  have c0 : Tendsto (fun n => pmean (sample X n ω) - P[X 0]) atTop (𝓝 0) := by
    simpa using c1.sub_const P[X 0]
  have c2 : Tendsto (fun n => pvar (sample X n ω)) atTop (𝓝 Var[X 0; P]) := by
    have := t2.sub (c0.pow 2)
    rw [← variance_eq' h4] at this
    simp only [ne_eq, OfNat.ofNat_ne_zero, not_false_eq_true, zero_pow, sub_zero] at this
    refine this.congr' ?_
    filter_upwards [eventually_ne_atTop 0] with n hn
    rw [pvar_shift hn P[X 0]]
  refine ⟨c1, c2, ?_⟩
  have := (((t4.sub ((c0.const_mul 4).mul t3)).add (((c0.pow 2).const_mul 6).mul t2)).sub ((c0.pow 4).const_mul 3)).sub (c2.pow 2)
  rw [wvar_eq h4]
  simp only [mul_zero, zero_mul, ne_eq, OfNat.ofNat_ne_zero, not_false_eq_true, zero_pow, sub_zero, add_zero] at this
  refine this.congr' ?_
  filter_upwards [eventually_ne_atTop 0] with n hn
  rw [pvarSq_shift hn P[X 0]]

theorem aemeas_sample (h : Iid P X) (n : ℕ) : AEMeasurable (fun ω => pmean (sample X n ω)) P := by
  simp only [pmean_sample]
  exact (Finset.aemeasurable_fun_sum _ fun i _ => (h.ident i).aemeasurable_fst).div_const _

theorem aemeas_pvar (h : Iid P X) (n : ℕ) : AEMeasurable (fun ω => pvar (sample X n ω)) P := by
  simp only [pvar_sample]
  exact (Finset.aemeasurable_fun_sum _ fun i _ => ((h.ident i).aemeasurable_fst.sub (aemeas_sample h n)).pow_const 2).div_const _

theorem aemeas_pvarSq (h : Iid P X) (n : ℕ) : AEMeasurable (fun ω => pvar (sqDevs (sample X n ω))) P := by
  simp only [pvarSq_sample]
  exact (Finset.aemeasurable_fun_sum _ fun i _ =>
    ((((h.ident i).aemeasurable_fst.sub (aemeas_sample h n)).pow_const 2).sub (aemeas_pvar h n)).pow_const 2).div_const _

theorem memLp_all (h : Iid P X) {p : ENNReal} (hp : MemLp (X 0) p P) (i : ℕ) : MemLp (X i) p P := (h.ident i).memLp_iff.mpr hp

/-- the variance of the sample mean -/
theorem integral_mean_sq (h : Iid P X) (h2 : MemLp (X 0) 2 P) (n : ℕ) :
    ∫ ω, (∑ i ∈ Finset.range n, X i ω - n * P[X 0]) ^ 2 ∂P = n * Var[X 0; P] := by
  have e : ∀ i, P[X i] = P[X 0] := fun i => (h.ident i).integral_eq
  have hi : ∀ i, Integrable (X i) P := fun i => (memLp_all h h2 i).integrable (by norm_num)
  have hm : P[∑ i ∈ Finset.range n, X i] = (n : ℝ) * P[X 0] := by
    have : (∑ i ∈ Finset.range n, X i) = fun ω => ∑ i ∈ Finset.range n, X i ω := by ext ω; simp
    rw [this, integral_finsetSum _ fun i _ => hi i]
    simp [e]
  have hv : Var[∑ i ∈ Finset.range n, X i; P] = n * Var[X 0; P] := by
    rw [IndepFun.variance_sum (fun i _ => memLp_all h h2 i) (fun i _ j _ hij => h.indep.indepFun hij)]
    rw [Finset.sum_congr rfl fun i _ => (h.ident i).variance_eq]
    simp
  rw [← hv, variance_eq_integral (Finset.aemeasurable_sum _ fun i _ => (h.ident i).aemeasurable_fst), hm]
  simp

/-- the squared error of the sample mean is of smaller order than `1/√n` -/
theorem mean_sq_small (h : Iid P X) (h2 : MemLp (X 0) 2 P) :
    TendstoInMeasure P (fun (n : ℕ) ω => √n * (pmean (sample X n ω) - P[X 0]) ^ 2) atTop fun _ => 0 := by
  have hm : ∀ n : ℕ, AEMeasurable (fun ω => √n * (pmean (sample X n ω) - P[X 0]) ^ 2) P := fun n =>
    (((aemeas_sample h n).sub_const _).pow_const 2).const_mul _
  refine tendstoInMeasure_of_tendsto_eLpNorm (p := 1) (by norm_num) (fun n => (hm n).aestronglyMeasurable) aestronglyMeasurable_const ?_
  have hlim : Tendsto (fun n : ℕ => ENNReal.ofReal (Var[X 0; P] * (√(n : ℝ))⁻¹)) atTop (𝓝 0) := by
    rw [← ENNReal.ofReal_zero]
    refine (ENNReal.continuous_ofReal.tendsto 0).comp ?_
    rw [← mul_zero Var[X 0; P]]
    exact (tendsto_inv_atTop_zero.comp (Real.tendsto_sqrt_atTop.comp tendsto_natCast_atTop_atTop)).const_mul _
  refine hlim.congr' ?_
  filter_upwards [eventually_ne_atTop 0] with n hn
  have hn' : (0 : ℝ) < n := by exact_mod_cast Nat.pos_of_ne_zero hn
  have hsq : √(n : ℝ) * √(n : ℝ) = n := Real.mul_self_sqrt hn'.le
  have hs : 0 < √(n : ℝ) := Real.sqrt_pos.mpr hn'
  have hfun : (fun ω => √(n : ℝ) * (pmean (sample X n ω) - P[X 0]) ^ 2) =
      fun ω => √(n : ℝ) / n ^ 2 * (∑ i ∈ Finset.range n, X i ω - n * P[X 0]) ^ 2 := by
    ext ω
    rw [pmean_sample]
    field_simp
  have hint : Integrable (fun ω => (∑ i ∈ Finset.range n, X i ω - n * P[X 0]) ^ 2) P := by
    have : MemLp (fun ω => ∑ i ∈ Finset.range n, X i ω - n * P[X 0]) 2 P :=
      (memLp_finsetSum _ fun i _ => memLp_all h h2 i).sub (memLp_const _)
    exact this.integrable_sq
  rw [eLpNorm_one_eq_lintegral_enorm]
  have h0 : ∀ ω, ‖((fun ω => √(n : ℝ) * (pmean (sample X n ω) - P[X 0]) ^ 2) - fun _ => (0 : ℝ) : Ω → ℝ) ω‖ₑ =
      ENNReal.ofReal (√(n : ℝ) / n ^ 2 * (∑ i ∈ Finset.range n, X i ω - n * P[X 0]) ^ 2) := by
    intro ω
    rw [hfun, Pi.sub_apply, sub_zero, Real.enorm_eq_ofReal (by positivity)]
  simp only [h0]
  rw [← ofReal_integral_eq_lintegral_ofReal (hint.const_mul _) (Filter.Eventually.of_forall fun ω => by positivity), integral_const_mul,
    integral_mean_sq h h2]
  congr 1
  field_simp
  rw [Real.sq_sqrt hn'.le]

theorem clt_of {Y : ℕ → Ω → ℝ} (h : Iid P Y) (h2 : MemLp (Y 0) 2 P) {Ω' : Type} [MeasurableSpace Ω'] {P' : Measure Ω'} [IsProbabilityMeasure P']
    {Z : Ω' → ℝ} (hZ : HasLaw Z (gaussianReal 0 Var[Y 0; P].toNNReal) P') :
    TendstoInDistribution (fun (n : ℕ) ω => (√n)⁻¹ * (∑ k ∈ Finset.range n, Y k ω - n * P[Y 0])) atTop Z (fun _ => P) P' :=
  tendstoInDistribution_inv_sqrt_mul_sum_sub hZ h2 h.indep h.ident

/-- **asymptotic normality** of the sample variance -/
theorem Iid.clt_var (h : Iid P X) (h4 : MemLp (X 0) 4 P) {Ω' : Type} [MeasurableSpace Ω'] {P' : Measure Ω'} [IsProbabilityMeasure P'] {Z : Ω' → ℝ}
    (hZ : HasLaw Z (gaussianReal 0 (varOfSq P (X 0)).toNNReal) P') :
    TendstoInDistribution (fun (n : ℕ) ω => √n * (pvar (sample X n ω) - Var[X 0; P])) atTop Z (fun _ => P) P' := by
  have hY : Iid P fun i ω => (X i ω - P[X 0]) ^ 2 := h.comp (f := fun x => (x - P[X 0]) ^ 2) (by fun_prop)
  have hclt := clt_of hY (memLp_sq h4) hZ
  have h2 : MemLp (X 0) 2 P := h4.mono_exponent (by norm_num)
  have hsm : TendstoInMeasure P (fun (n : ℕ) ω => -(√n * (pmean (sample X n ω) - P[X 0]) ^ 2)) atTop fun _ => (0 : ℝ) := by
    have := mean_sq_small h h2
    rw [tendstoInMeasure_iff_norm] at this ⊢
    simpa using this
  have := hclt.add_of_tendstoInMeasure_const hsm
    (fun n => ((((aemeas_sample h n).sub_const _).pow_const 2).const_mul _).neg)
  simp only [add_zero] at this
  refine this.congr (fun n => Filter.Eventually.of_forall fun ω => ?_) (Filter.EventuallyEq.refl _ _)
  simp only [Pi.add_apply]
  rcases Nat.eq_zero_or_pos n with rfl | hn
  · simp
  have hn' : (0 : ℝ) < n := by exact_mod_cast hn
  have hs : 0 < √(n : ℝ) := Real.sqrt_pos.mpr hn'
  have hsq : √(n : ℝ) ^ 2 = n := Real.sq_sqrt hn'.le
  rw [pvar_shift hn.ne' P[X 0], ← variance_eq' h4]
  field_simp
  rw [hsq]
  ring

end
end Verif
