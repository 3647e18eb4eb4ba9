import Verif.Lemmas.Coverage4
import Mathlib.Probability.Independence.ZeroOne

/-!
# Normalised sums of independent observations are unbounded below, almost surely

By the central limit theorem and Kolmogorov's zero-one law.
-/

set_option linter.unusedSectionVars false

namespace Verif
open MeasureTheory ProbabilityTheory Filter Topology

variable {Ω : Type}

/-- infinitely often below `-c` standard deviations, with a margin -/
def Below (N : ℕ → ℕ) (c : ℝ) (f : ℕ → Ω → ℝ) : Set Ω :=
  {ω | ∃ j : ℕ, ∃ᶠ n in atTop, f n ω < -(c + 1 / ((j : ℝ) + 1)) * √(N n : ℝ)}

theorem measurable_below {m : MeasurableSpace Ω} {f : ℕ → Ω → ℝ} (hf : ∀ n, Measurable[m] (f n)) (N : ℕ → ℕ) (c : ℝ) :
    MeasurableSet[m] (Below N c f) := by
  have : Below N c f = ⋃ j : ℕ, ⋂ a : ℕ, ⋃ b : ℕ, ⋃ _ : a ≤ b, {ω | f b ω < -(c + 1 / ((j : ℝ) + 1)) * √(N b : ℝ)} := by
    ext ω
    simp [Below, frequently_atTop]
  rw [this]
  refine MeasurableSet.iUnion fun j => MeasurableSet.iInter fun a => MeasurableSet.iUnion fun b => MeasurableSet.iUnion fun _ => ?_
  exact measurableSet_lt (hf b) measurable_const

theorem below_shift_aux {N : ℕ → ℕ} (hN : Tendsto N atTop atTop) (c : ℝ) {a b : ℕ → ℝ} (K : ℝ) (h : ∀ᶠ n in atTop, b n = a n + K)
    (ha : ∃ j : ℕ, ∃ᶠ n in atTop, a n < -(c + 1 / ((j : ℝ) + 1)) * √(N n : ℝ)) :
    ∃ j : ℕ, ∃ᶠ n in atTop, b n < -(c + 1 / ((j : ℝ) + 1)) * √(N n : ℝ) := by
  obtain ⟨j, hj⟩ := ha
  refine ⟨j + 1, ?_⟩
  have hs : Tendsto (fun n => √(N n : ℝ)) atTop atTop := Real.tendsto_sqrt_atTop.comp (tendsto_natCast_atTop_atTop.comp hN)
  set e : ℝ := 1 / ((j : ℝ) + 1) - 1 / (((j + 1 : ℕ) : ℝ) + 1) with he
  have hpos : 0 < e := by
    rw [he, sub_pos]
    push_cast
    apply one_div_lt_one_div_of_lt <;> linarith [Nat.cast_nonneg (α := ℝ) j]
  have hK : ∀ᶠ n in atTop, K / e ≤ √(N n : ℝ) := hs.eventually (eventually_ge_atTop _)
  refine (hj.and_eventually (h.and hK)).mono ?_
  rintro n ⟨h1, h2, h3⟩
  rw [h2]
  rw [div_le_iff₀ hpos] at h3
  have : -(c + 1 / ((j : ℝ) + 1)) * √(N n : ℝ) = -(c + 1 / (((j + 1 : ℕ) : ℝ) + 1)) * √(N n : ℝ) - √(N n : ℝ) * e := by
    rw [he]; ring
  linarith

variable [mΩ : MeasurableSpace Ω] {P : Measure Ω} [IsProbabilityMeasure P] {Z : ℕ → Ω → ℝ}

theorem below_tail {N : ℕ → ℕ} (hN : Tendsto N atTop atTop) (c : ℝ) (k : ℕ) :
    Below N c (fun n ω => ∑ i ∈ Finset.range (N n), Z i ω) = Below N c (fun n ω => ∑ i ∈ Finset.Ico k (N n), Z i ω) := by
  ext ω
  have h : ∀ᶠ n in atTop, ∑ i ∈ Finset.range (N n), Z i ω = ∑ i ∈ Finset.Ico k (N n), Z i ω + ∑ i ∈ Finset.range k, Z i ω := by
    filter_upwards [hN.eventually (eventually_ge_atTop k)] with n hn
    rw [← Finset.sum_range_add_sum_Ico (fun i => Z i ω) hn, add_comm]
  constructor
  · exact below_shift_aux hN c (-(∑ i ∈ Finset.range k, Z i ω)) (h.mono fun n hn => by dsimp only; linarith)
  · exact below_shift_aux hN c (∑ i ∈ Finset.range k, Z i ω) h

theorem below_zero_one (hZ : iIndepFun Z P) (hm : ∀ i, Measurable (Z i)) {N : ℕ → ℕ} (hN : Tendsto N atTop atTop) (c : ℝ) :
    P (Below N c (fun n ω => ∑ i ∈ Finset.range (N n), Z i ω)) = 0 ∨ P (Below N c (fun n ω => ∑ i ∈ Finset.range (N n), Z i ω)) = 1 := by
  refine measure_zero_or_one_of_measurableSet_limsup_atTop (s := fun i => MeasurableSpace.comap (Z i) inferInstance)
    (fun i => (hm i).comap_le) hZ ?_
  rw [limsup_eq_iInf_iSup_of_nat, MeasurableSpace.measurableSet_iInf]
  intro k
  rw [below_tail hN c k]
  apply measurable_below
  intro n
  refine Finset.measurable_fun_sum _ fun i hi => ?_
  have hik : k ≤ i := (Finset.mem_Ico.mp hi).1
  have : Measurable[MeasurableSpace.comap (Z i) inferInstance] (Z i) := comap_measurable (Z i)
  exact this.mono (le_iSup₂_of_le i hik le_rfl) le_rfl

/-- if events keep a probability of at least `c`, infinitely many happen with probability at least `c` -/
theorem prob_frequently {A : ℕ → Set Ω} (hA : ∀ n, MeasurableSet (A n)) {c : ENNReal} (h : ∀ᶠ n in atTop, c ≤ P (A n)) :
    c ≤ P {ω | ∃ᶠ n in atTop, ω ∈ A n} := by
  have e : {ω | ∃ᶠ n in atTop, ω ∈ A n} = ⋂ a : ℕ, ⋃ b : ℕ, ⋃ _ : a ≤ b, A b := by
    ext ω; simp [frequently_atTop]
  rw [e]
  have hanti : Antitone fun a : ℕ => ⋃ b : ℕ, ⋃ _ : a ≤ b, A b := by
    intro a a' haa ω hω
    simp only [Set.mem_iUnion] at hω ⊢
    obtain ⟨b, hb, hω⟩ := hω
    exact ⟨b, haa.trans hb, hω⟩
  have ht := tendsto_measure_iInter_atTop (μ := P) (s := fun a : ℕ => ⋃ b : ℕ, ⋃ _ : a ≤ b, A b)
    (fun a => (MeasurableSet.iUnion fun b => MeasurableSet.iUnion fun _ => hA b).nullMeasurableSet) hanti ⟨0, measure_ne_top _ _⟩
  refine ge_of_tendsto ht ?_
  filter_upwards [h] with n hn
  refine hn.trans (measure_mono ?_)
  intro ω hω
  simp only [Set.mem_iUnion]
  exact ⟨n, le_rfl, hω⟩

/-- sums of centred observations fall below every multiple of the standard deviation, infinitely often -/
theorem sums_below (hZ : Iid P Z) (hm : ∀ i, Measurable (Z i)) (h2 : MemLp (Z 0) 2 P) (h0 : P[Z 0] = 0) (hv : Var[Z 0; P] ≠ 0)
    {N : ℕ → ℕ} (hN : Tendsto N atTop atTop) (c : ℝ) :
    ∀ᵐ ω ∂P, ∃ᶠ n in atTop, ∑ i ∈ Finset.range (N n), Z i ω < -c * √(N n : ℝ) := by
  have hv0 : Var[Z 0; P].toNNReal ≠ 0 := (Real.toNNReal_pos.mpr (lt_of_le_of_ne (variance_nonneg _ _) hv.symm)).ne'
  have hT := tid_comp (clt_of hZ h2 (Z := (id : ℝ → ℝ)) (P' := gaussianReal 0 Var[Z 0; P].toNNReal) ⟨aemeasurable_id, by simp⟩) hN
  have hlim := between_limit (P := P) hv0 hT (A := fun _ _ => -(c + 2) - 1) (B := fun _ _ => -(c + 2)) (a := -(c + 2) - 1) (b := -(c + 2))
    (fun _ => aemeasurable_const) (fun _ => aemeasurable_const) (Eventually.of_forall fun _ => ⟨tendsto_const_nhds, tendsto_const_nhds⟩)
  set p := gaussianReal 0 Var[Z 0; P].toNNReal (Set.Icc (-(c + 2) - 1) (-(c + 2))) with hp
  have hppos : 0 < p := by
    rw [hp, pos_iff_ne_zero]
    intro h
    have hac := gaussianReal_absolutelyContinuous' 0 hv0 h
    rw [Real.volume_Icc] at hac
    norm_num at hac
  have hpt : p ≠ ⊤ := measure_ne_top _ _
  have hlt : p / 2 < p := ENNReal.half_lt_self hppos.ne' hpt
  have hev : ∀ᶠ n in atTop, p / 2 ≤ P {ω | ∑ i ∈ Finset.range (N n), Z i ω < -(c + 1 / (((0 : ℕ) : ℝ) + 1)) * √(N n : ℝ)} := by
    filter_upwards [hlim.eventually (lt_mem_nhds hlt), hN.eventually (eventually_gt_atTop 0)] with n hn hn0
    refine hn.le.trans (measure_mono ?_)
    rintro ω ⟨-, hω⟩
    have hs : 0 < √(N n : ℝ) := Real.sqrt_pos.mpr (by exact_mod_cast hn0)
    simp only [h0, mul_zero, sub_zero] at hω
    rw [inv_mul_le_iff₀ hs] at hω
    simp only [Set.mem_ofPred_eq]
    push_cast
    rw [zero_add, div_one]
    nlinarith
  have hge := prob_frequently (P := P) (fun n => measurableSet_lt (Finset.measurable_fun_sum _ fun i _ => hm i) measurable_const) hev
  have hsub : {ω | ∃ᶠ n in atTop, ω ∈ {ω | ∑ i ∈ Finset.range (N n), Z i ω < -(c + 1 / (((0 : ℕ) : ℝ) + 1)) * √(N n : ℝ)}} ⊆
      Below N c (fun n ω => ∑ i ∈ Finset.range (N n), Z i ω) := fun ω hω => ⟨0, hω⟩
  have hbpos : 0 < P (Below N c (fun n ω => ∑ i ∈ Finset.range (N n), Z i ω)) :=
    lt_of_lt_of_le (ENNReal.half_pos hppos.ne') (hge.trans (measure_mono hsub))
  have h1 : P (Below N c (fun n ω => ∑ i ∈ Finset.range (N n), Z i ω)) = 1 :=
    (below_zero_one hZ.indep hm hN c).resolve_left hbpos.ne'
  have hae : ∀ᵐ ω ∂P, ω ∈ Below N c (fun n ω => ∑ i ∈ Finset.range (N n), Z i ω) :=
    (prob_compl_eq_zero_iff (measurable_below (fun n => Finset.measurable_fun_sum _ fun i _ => hm i) N c)).mpr h1
  filter_upwards [hae] with ω hω
  obtain ⟨j, hj⟩ := hω
  refine hj.mono fun n hn => ?_
  have : 0 ≤ 1 / ((j : ℝ) + 1) * √(N n : ℝ) := by positivity
  nlinarith

/-- the finite-sample interval lies below the variance, infinitely often -/
theorem Arm.fs_misses {E β W : Type} {X : ℕ → Ω → ℝ} (hX : Iid P X) (hm : ∀ i, Measurable (X i)) (h4 : MemLp (X 0) 4 P) (hw : varOfSq P (X 0) ≠ 0)
    {cfg : SSConfig β ℝ} {g τ m : ℝ} (hc : Arm.Numbers cfg g τ m) {ops : EtaOps E β ℝ} (hrep : Arm.ScoreRepeatable ops) {rng : Rng W ℝ}
    {δ : ℝ} {N : ℕ → ℕ} (hN : Tendsto N atTop atTop)
    {d : ℕ → Ω → ExpData β} {s s' : ℕ → Ω → ArmState E β ℝ} {w w' : ℕ → Ω → W} {lo hi : ℕ → Ω → Fl ℝ}
    (hup : ∀ n ω, Arm.ssUpdate cfg ops realLib rng (d n ω) (.fin δ) (s n ω, w n ω) = (.ok (lo n ω, hi n ω), s' n ω, w' n ω))
    (hev : ∀ n ω, Arm.EvaluatedOn ops (s' n ω) (sample X (N n) ω)) {ew : ℕ → Ω → ℝ}
    (hew : ∀ n ω, ops.csWidth (s' n ω).eta (.fin (δ / 2)) cfg.etaSubG cfg.rho = .ok (some (.fin (ew n ω))))
    (hbd : ∀ ω, ∃ C, ∀ n, √(N n : ℝ) * ew n ω ^ 2 ≤ C) :
    ∀ᵐ ω ∂P, ∃ᶠ n in atTop, (hi n ω).lt (.fin Var[X 0; P]) = true := by
  obtain ⟨ω0⟩ : Nonempty Ω := P.nonempty_of_neZero
  obtain ⟨h0, h1, -, hg, hτ, hm1, -⟩ := Arm.fs_closed hc hrep (hup 0 ω0) (hev 0 ω0) (hew 0 ω0)
  have hZ : Iid P fun i ω => (X i ω - P[X 0]) ^ 2 - Var[X 0; P] :=
    hX.comp (f := fun x => (x - P[X 0]) ^ 2 - Var[X 0; P]) (by fun_prop)
  have hZm : ∀ i, Measurable fun ω => (X i ω - P[X 0]) ^ 2 - Var[X 0; P] := fun i =>
    (((hm i).sub_const _).pow_const 2).sub_const _
  have hint : Integrable (fun ω => (X 0 ω - P[X 0]) ^ 2) P := int_pow h4 _ (by omega)
  have hmean : P[fun ω => (X 0 ω - P[X 0]) ^ 2 - Var[X 0; P]] = 0 := by
    rw [integral_sub hint (integrable_const _), ← variance_eq_integral (hm 0).aemeasurable]
    simp
  have hvar : Var[fun ω => (X 0 ω - P[X 0]) ^ 2 - Var[X 0; P]; P] ≠ 0 := by
    rw [variance_sub_const hint.aestronglyMeasurable]
    exact hw
  have hall : ∀ᵐ ω ∂P, ∀ c : ℕ, ∃ᶠ n in atTop, ∑ i ∈ Finset.range (N n), ((X i ω - P[X 0]) ^ 2 - Var[X 0; P]) < -(c : ℝ) * √(N n : ℝ) :=
    ae_all_iff.mpr fun c => sums_below hZ hZm ((memLp_sq h4).sub (memLp_const _)) hmean hvar hN c
  filter_upwards [hall] with ω hω
  obtain ⟨C, hC⟩ := hbd ω
  obtain ⟨c, hcc⟩ := exists_nat_gt (fsLimit g τ δ + 1 + C)
  have hwid := (fsWidth_limit g τ m δ hg (by linarith)).comp hN
  have hpos : ∀ᶠ n : ℕ in atTop, 0 < fsInner g m δ (N n) :=
    hN.eventually ((Arm.fsInner_tendsto g m δ hg (by linarith)).eventually (lt_mem_nhds (log_four_div h0 h1)))
  have hbound : ∀ᶠ n : ℕ in atTop, √(N n : ℝ) * fsHalfWidth g τ m δ (N n) < fsLimit g τ δ + 1 :=
    hwid.eventually (gt_mem_nhds (by linarith))
  refine ((hω c).and_eventually (hpos.and (hbound.and ((hN.eventually (eventually_ge_atTop ⌈m⌉₊)).and
    (hN.eventually (eventually_gt_atTop 0)))))).mono ?_
  rintro n ⟨a1, a2, a3, a4, a5⟩
  obtain ⟨-, -, -, -, -, -, hcl⟩ := Arm.fs_closed hc hrep (hup n ω) (hev n ω) (hew n ω)
  have hl : (sample X (N n) ω).length = N n := by simp [sample]
  rw [hl] at hcl
  obtain ⟨-, e2⟩ := hcl ((Nat.le_ceil m).trans (by exact_mod_cast a4)) a2.le
  rw [e2]
  have hn : (0 : ℝ) < N n := by exact_mod_cast a5
  have hs : 0 < √(N n : ℝ) := Real.sqrt_pos.mpr hn
  have hss : √(N n : ℝ) * √(N n : ℝ) = N n := Real.mul_self_sqrt hn.le
  show decide (pvar (sample X (N n) ω) + (fsHalfWidth g τ m δ (N n) + ew n ω ^ 2) < Var[X 0; P]) = true
  rw [decide_eq_true_eq, pvar_shift (by omega) (P[X 0])]
  rw [Finset.sum_sub_distrib, Finset.sum_const, Finset.card_range, nsmul_eq_mul] at a1
  set S := ∑ i ∈ Finset.range (N n), (X i ω - P[X 0]) ^ 2
  have b1 : S / N n < Var[X 0; P] - c / √(N n : ℝ) := by
    have e : (c : ℝ) / √(N n : ℝ) = c * √(N n : ℝ) / N n := by
      rw [div_eq_div_iff hs.ne' hn.ne', mul_assoc, hss]
    rw [e, div_lt_iff₀ hn, sub_mul, div_mul_cancel₀ _ hn.ne']
    nlinarith
  have b2 : fsHalfWidth g τ m δ (N n) + ew n ω ^ 2 < c / √(N n : ℝ) := by
    rw [lt_div_iff₀ hs]
    nlinarith [hC n]
  have b3 : 0 ≤ (pmean (sample X (N n) ω) - P[X 0]) ^ 2 := sq_nonneg _
  linarith

end Verif
