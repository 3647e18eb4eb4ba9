import Verif.Lemmas.FrontDoorLimit

/-!
# Arms with front-door parameters: the tables converge and the scores approach their limits
-/

set_option linter.unusedSectionVars false
set_option linter.unusedSimpArgs false

namespace Verif
open MeasureTheory ProbabilityTheory Filter Topology Arm Param
open scoped ENNReal

/-! ## Frequencies -/

section
variable {Ω : Type} [MeasurableSpace Ω] {P : Measure Ω} [IsProbabilityMeasure P]

theorem pmean_indicator {T : Type} (A : Set T) [DecidablePred (· ∈ A)] (l : List T) :
    pmean (l.map fun p => A.indicator (fun _ => (1 : ℝ)) p) = (l.countP (fun p => decide (p ∈ A)) : ℝ) / l.length := by
  unfold pmean
  rw [List.length_map]
  congr 1
  induction l with
  | nil => simp
  | cons p l ih =>
    rw [List.map_cons, List.sum_cons, ih, List.countP_cons]
    by_cases h : p ∈ A
    · simp [h, add_comm]
    · simp [h]

theorem integral_indicator_comp {T : Type} [MeasurableSpace T] {V : Ω → T} (hV : AEMeasurable V P) {A : Set T} (hA : MeasurableSet A) :
    ∫ ω, A.indicator (fun _ => (1 : ℝ)) (V ω) ∂P = P.real {ω | V ω ∈ A} := by
  have h1 : ∫ t, A.indicator (fun _ => (1 : ℝ)) t ∂(P.map V) = ∫ ω, A.indicator (fun _ => (1 : ℝ)) (V ω) ∂P :=
    integral_map hV (measurable_const.indicator hA).aestronglyMeasurable
  rw [← h1, integral_indicator_const _ hA, map_measureReal_apply_of_aemeasurable hV hA, smul_eq_mul, mul_one]
  rfl

theorem integrable_indicator_comp {T : Type} [MeasurableSpace T] {V : Ω → T} (hV : AEMeasurable V P) {A : Set T} (hA : MeasurableSet A) :
    Integrable (fun ω => A.indicator (fun _ => (1 : ℝ)) (V ω)) P := by
  refine Integrable.of_bound (((measurable_const.indicator hA).comp_aemeasurable hV).aestronglyMeasurable) 1 (Eventually.of_forall fun ω => ?_)
  by_cases h : V ω ∈ A <;> simp [h]

/-- the fraction of the units with exposure `x` that have covariate `a` -/
noncomputable def unitFreq (us : List (Obs ℝ)) (x a : ℤ) : ℝ :=
  (us.countP (fun v => decide (v.x = .int x ∧ v.z = [.int a])) : ℝ) / (us.countP (fun v => decide (v.x = .int x)) : ℝ)

variable {S : Finset ℤ}

theorem Obs.FiniteZ.x_iff {u : Obs ℝ} (h : u.FiniteZ S) (x : ℤ) : u.x = .int x ↔ (u.point 1).2.1 = x := by
  show u.x = .int x ↔ u.xv = x
  rcases h.1 with h | h <;> simp [Obs.xv, h, Cell.val]
  · constructor
    · intro h; exact_mod_cast h
    · intro h; exact_mod_cast h
  · constructor
    · intro h; exact_mod_cast h
    · intro h; exact_mod_cast h

theorem Obs.FiniteZ.z_iff {u : Obs ℝ} (h : u.FiniteZ S) (a : ℤ) : u.z = [.int a] ↔ (u.point 1).1 0 = a := by
  obtain ⟨b, -, h⟩ := h.2
  have : (u.point 1).1 0 = b := by simp [Obs.point, Obs.zv, h, Cell.val]
  rw [this, h]
  simp

def cellSet (x a : ℝ) : Set ((Fin 1 → ℝ) × ℝ × ℝ) := {p | p.2.1 = x ∧ p.1 0 = a}

def rowSet (x : ℝ) : Set ((Fin 1 → ℝ) × ℝ × ℝ) := {p | p.2.1 = x}

theorem measurableSet_row (x : ℝ) : MeasurableSet (rowSet x) := by
  have hx : Measurable fun p : (Fin 1 → ℝ) × ℝ × ℝ => p.2.1 := by fun_prop
  exact hx (measurableSet_singleton x)

theorem measurableSet_cell (x a : ℝ) : MeasurableSet (cellSet x a) := by
  have hz : Measurable fun p : (Fin 1 → ℝ) × ℝ × ℝ => p.1 0 := (measurable_pi_apply 0).comp measurable_fst
  exact (measurableSet_row x).inter (hz (measurableSet_singleton a))

theorem unitFreq_pmean {l : List ℕ} {u : ℕ → Obs ℝ} (hu : ∀ i, (u i).FiniteZ S) (x a : ℤ) :
    unitFreq (l.map u) x a = pmean (l.map fun i => (cellSet x a).indicator (fun _ => (1 : ℝ)) ((u i).point 1)) /
      pmean (l.map fun i => (rowSet x).indicator (fun _ => (1 : ℝ)) ((u i).point 1)) := by
  classical
  have e1 := pmean_indicator (cellSet x a) (l.map fun i => (u i).point 1)
  have e2 := pmean_indicator (rowSet x) (l.map fun i => (u i).point 1)
  rw [List.map_map, List.countP_map, List.length_map] at e1 e2
  simp only [Function.comp_def] at e1 e2
  rw [e1, e2]
  unfold unitFreq
  rw [List.countP_map, List.countP_map]
  have c1 : List.countP ((fun v : Obs ℝ => decide (v.x = .int x ∧ v.z = [.int a])) ∘ u) l = List.countP (fun i => decide ((u i).point 1 ∈ cellSet x a)) l := by
    refine List.countP_congr fun i _ => ?_
    rw [decide_eq_true_iff, Function.comp_apply, decide_eq_true_iff, (hu i).x_iff, (hu i).z_iff]
    rfl
  have c2 : List.countP ((fun v : Obs ℝ => decide (v.x = .int x)) ∘ u) l = List.countP (fun i => decide ((u i).point 1 ∈ rowSet x)) l := by
    refine List.countP_congr fun i _ => ?_
    rw [decide_eq_true_iff, Function.comp_apply, decide_eq_true_iff, (hu i).x_iff]
    rfl
  rw [c1, c2]
  rcases l.eq_nil_or_concat with rfl | ⟨_, _, rfl⟩
  · simp
  · rw [div_div_div_cancel_right₀]
    simp
    positivity

theorem freq_tendsto {W : Type} {U : ℕ → Ω → Obs ℝ} (hU : Iid P fun i ω => (U i ω).point 1) (hfin : ∀ i ω, (U i ω).FiniteZ S) (rng : Rng W ℝ) {size : ℕ → ℕ}
    (hsize : ∀ n, 2 ≤ size n) (w : ℕ → W) : ∀ᵐ ω ∂P, ∀ x a : ℤ, P.real {ω | ((U 0 ω).point 1).2.1 = x} ≠ 0 →
      Tendsto (fun n => unitFreq ((foldIdx rng size w 0 n).map fun i => U i ω) x a) atTop (𝓝 (condProb P (fun ω => (U 0 ω).point 1) x a)) := by
  have hVm : AEMeasurable (fun ω => (U 0 ω).point 1) P := (hU.ident 0).aemeasurable_fst
  refine ae_all_iff.2 fun x => ae_all_iff.2 fun a => ?_
  have h1 := fold_slln hU rng size w (f := 0) (by omega) hsize (g := (cellSet x a).indicator fun _ => (1 : ℝ)) (measurable_const.indicator (measurableSet_cell x a))
    (integrable_indicator_comp hVm (measurableSet_cell x a))
  have h2 := fold_slln hU rng size w (f := 0) (by omega) hsize (g := (rowSet x).indicator fun _ => (1 : ℝ)) (measurable_const.indicator (measurableSet_row x))
    (integrable_indicator_comp hVm (measurableSet_row x))
  rw [integral_indicator_comp hVm (measurableSet_cell x a)] at h1
  rw [integral_indicator_comp hVm (measurableSet_row x)] at h2
  filter_upwards [h1, h2] with ω a1 a2 hne
  have := a1.div a2 hne
  refine this.congr fun n => ?_
  rw [unitFreq_pmean fun i => hfin i ω]
  rfl

/-- the probabilities of the exposures -/
theorem row_probs {V : Ω → (Fin 1 → ℝ) × ℝ × ℝ} (hV : AEMeasurable V P) (hbin : ∀ ω, (V ω).2.1 = 0 ∨ (V ω).2.1 = 1) :
    ∫ ω, (V ω).2.1 ∂P = P.real {ω | (V ω).2.1 = 1} ∧ P.real {ω | (V ω).2.1 = 0} = 1 - P.real {ω | (V ω).2.1 = 1} := by
  have e1 := integral_indicator_comp hV (measurableSet_row 1)
  have e0 := integral_indicator_comp hV (measurableSet_row 0)
  have i1 := integrable_indicator_comp hV (measurableSet_row 1)
  have hx : (fun ω => (rowSet 1).indicator (fun _ => (1 : ℝ)) (V ω)) = fun ω => (V ω).2.1 := by
    funext ω
    rcases hbin ω with h | h <;> simp [rowSet, h, Set.indicator]
  have hx0 : (fun ω => (rowSet 0).indicator (fun _ => (1 : ℝ)) (V ω)) = fun ω => 1 - (rowSet 1).indicator (fun _ => (1 : ℝ)) (V ω) := by
    funext ω
    rcases hbin ω with h | h <;> simp [rowSet, h, Set.indicator]
  rw [hx0, integral_sub (integrable_const _) i1, e1] at e0
  rw [hx] at e1
  refine ⟨e1, ?_⟩
  show P.real {ω | V ω ∈ rowSet 0} = 1 - P.real {ω | V ω ∈ rowSet 1}
  rw [← e0]
  simp

theorem row_pos {V : Ω → (Fin 1 → ℝ) × ℝ × ℝ} {x a m : ℝ} (hm : 0 ≤ m) (h : m < condProb P V x a) : P.real {ω | (V ω).2.1 = x} ≠ 0 := by
  intro h0
  unfold condProb at h
  rw [h0, div_zero] at h
  linarith

end

/-! ## The fitted table -/

namespace FrontDoor
variable {M : Type} {S : Finset ℤ} {R : Predictor M ℝ} {SR : M → Prop} {μ : ℤ} {κ ratio lam : ℝ}

theorem adj_exact {T : Type} [DecidableEq T] (mp : ℝ) (zs : List T) (p : T → ℝ) (h : ∀ z ∈ zs, mp ≤ p z ∧ p z ≤ 1 - mp) {z : T} (hz : z ∈ zs) : Tab.adj mp zs p z = p z := by
  have hs0 : (zs.map fun z => Tab.viol mp (p z)).sum = 0 := by
    apply List.sum_eq_zero
    intro v hv
    obtain ⟨w, hw, rfl⟩ := List.mem_map.mp hv
    simp only [Tab.viol, gt_iff_lt, not_lt.mpr (h w hw).1, not_lt.mpr (h w hw).2, if_false]
  simp only [Tab.adj, hs0, zero_div, sub_zero]
  rw [if_pos]
  simp only [Tab.okB, Bool.not_eq_true', Bool.or_eq_false_iff, decide_eq_false_iff_not, not_lt, gt_iff_lt]
  exact h z hz

theorem table_freq (hr : 1 ≤ ratio) {e : FrontDoor M ℝ} (he : Regular S SR μ κ ratio e) {us : List (Obs ℝ)} {θ : Fin 3 → ℝ} (hf : FittedOn R lam κ us e θ)
    {x : ℤ} (hin : ∀ a ∈ S, 1 / (S.card : ℝ) / ratio ≤ unitFreq us x a ∧ unitFreq us x a ≤ 1 - 1 / (S.card : ℝ) / ratio) :
    ∀ a ∈ S, [Cell.int a] ∈ e.cpd.zValues ∧ tableOf e x a = unitFreq us x a := by
  have hpos : ∀ a ∈ S, ∃ u ∈ us, u.x = .int x ∧ u.z = [.int a] := by
    intro a ha
    have hc : 0 < 1 / (S.card : ℝ) / ratio := by
      have : (0 : ℝ) < S.card := by exact_mod_cast Finset.card_pos.2 ⟨a, ha⟩
      positivity
    by_contra hno
    have h0 : us.countP (fun v => decide (v.x = .int x ∧ v.z = [.int a])) = 0 := by
      rw [List.countP_eq_zero]
      intro u hu h
      exact hno ⟨u, hu, by simpa using h⟩
    have := (hin a ha).1
    unfold unitFreq at this
    rw [h0] at this
    simp only [Nat.cast_zero, zero_div] at this
    linarith
  have hseen : ∀ a ∈ S, [Cell.int a] ∈ e.cpd.zValues := by
    intro a ha
    obtain ⟨u, hu, -, h⟩ := hpos a ha
    rw [← h]
    exact hf.seen u hu
  have hlen : e.cpd.zValues.length = S.card := by
    have := sum_keys he.znd he.zs hseen (fun _ => (1 : ℝ))
    simp at this
    exact_mod_cast this
  intro a ha
  refine ⟨hseen a ha, ?_⟩
  obtain ⟨u, hu, hux, -⟩ := hpos a ha
  have h1 := hf.cell u hu _ (hseen a ha)
  rw [hux, Tab.mpOf_eq _ (by rw [he.ratio]; exact hr), he.ratio, hlen, adj_exact _ _ _ _ (hseen a ha)] at h1
  · unfold tableOf
    rw [Int.floor_intCast, Int.floor_intCast]
    exact h1
  · intro z hz
    obtain ⟨b, hb, rfl⟩ := he.zs z hz
    exact hin b hb

section
variable {W : Type} {cfg : SSConfig (Cell ℝ) ℝ} {ridge0 : M} {rng : Rng W ℝ} {size : ℕ → ℕ} {w : ℕ → W} {δ : Fl ℝ}

theorem stream_regular (hR : R.IsRidgeIntercept SR lam) (hμ : 1 ≤ μ) (hr : ratio ≠ 0) (h2 : κ ≤ 1 / 2) {u : ℕ → Obs ℝ} (hsize : ∀ n, 2 ≤ size n)
    {s : ℕ → ArmState (FrontDoor M ℝ) (Cell ℝ) ℝ} {ci : ℕ → Fl ℝ × Fl ℝ} (h : Streams 1 cfg (ops R ridge0) rng u size δ s w ci)
    (h0 : Regular S SR μ κ ratio (s 0).eta) (hfin : ∀ i, (u i).FiniteZ S) (n : ℕ) :
    Regular S SR μ κ ratio (s n).eta ∧
      (μ ≤ Obs.treated ((foldIdx rng size w 0 (n + 1)).map u) ∧ μ ≤ Obs.control ((foldIdx rng size w 0 (n + 1)).map u) →
        ∃ θ, FittedOn R lam κ ((foldIdx rng size w 0 (n + 1)).map u) (s (n + 1)).eta θ) := by
  have hstep : ∀ n, Regular S SR μ κ ratio (s n).eta → Regular S SR μ κ ratio (s (n + 1)).eta ∧
      (μ ≤ Obs.treated ((foldIdx rng size w 0 (n + 1)).map u) ∧ μ ≤ Obs.control ((foldIdx rng size w 0 (n + 1)).map u) →
        ∃ θ, FittedOn R lam κ ((foldIdx rng size w 0 (n + 1)).map u) (s (n + 1)).eta θ) := by
    intro n hn
    obtain ⟨e, h1, h4⟩ := stream_update_rel Alike.refl (fun _ _ _ => Alike.trans) h (score_alike R ridge0) n
    obtain ⟨e', h3, h5, h6⟩ := fit_regular hR hμ hr h2 hn (us := (foldIdx rng size w 0 (n + 1)).map u) (AIPW.fold_units hsize 0 (by omega) n)
      (fun v hv => by obtain ⟨i, -, rfl⟩ := List.mem_map.1 hv; exact hfin i)
    rw [show (ops R ridge0).fit (s n).eta _ = fit R _ (s n).eta from rfl, h3] at h1
    simp only [Prod.mk.injEq, true_and] at h1
    subst h1
    refine ⟨h5.alike h4, fun hc => ?_⟩
    obtain ⟨θ, hθ⟩ := h6 hc
    exact ⟨θ, hθ.alike h4⟩
  have hreg : ∀ n, Regular S SR μ κ ratio (s n).eta := by
    intro n
    induction n with
    | zero => exact h0
    | succ n ih => exact (hstep n ih).1
  exact ⟨hreg n, (hstep n (hreg n)).2⟩

end

section
variable {Ω W : Type} [MeasurableSpace Ω] {P : Measure Ω} [IsProbabilityMeasure P] {cfg : SSConfig (Cell ℝ) ℝ} {ridge0 : M} {rng : Rng W ℝ} {size : ℕ → ℕ} {w : ℕ → W} {δ : Fl ℝ}

theorem listed {u : Obs ℝ} (h : u.FiniteZ S) : Listed S (u.point 1) := h.point

theorem listed_memLp {V : Ω → (Fin 1 → ℝ) × ℝ × ℝ} (hV : AEMeasurable V P) (h : ∀ ω, Listed S (V ω)) (p : ℝ≥0∞) (j : Fin 3) :
    MemLp (fun ω => affineRegressor (V ω) j) p P := by
  refine MemLp.of_bound ((measurable_affineRegressor j).comp_aemeasurable hV).aestronglyMeasurable (1 + ∑ a ∈ S, |(a : ℝ)|) (Eventually.of_forall fun ω => ?_)
  have h0 : 0 ≤ ∑ a ∈ S, |(a : ℝ)| := Finset.sum_nonneg fun _ _ => abs_nonneg _
  obtain ⟨hx, a, ha, hz⟩ := h ω
  have ha' := Finset.single_le_sum (f := fun a : ℤ => |(a : ℝ)|) (fun _ _ => abs_nonneg _) ha
  rw [Real.norm_eq_abs]
  fin_cases j
  · show |(1 : ℝ)| ≤ _
    rw [abs_one]; linarith
  · show |(V ω).2.1| ≤ _
    rcases hx with h | h <;> rw [h] <;> simp <;> linarith
  · show |(V ω).1 0| ≤ _
    rw [hz]
    linarith

theorem scores_approach {U : ℕ → Ω → Obs ℝ} (hU : Iid P fun i ω => (U i ω).point 1) (hfin : ∀ i ω, (U i ω).FiniteZ S) (hy : MemLp (fun ω => (U 0 ω).yv) 2 P)
    (hnd : Nondegenerate P fun ω => affineRegressor ((U 0 ω).point 1)) {b : Fin 3 → ℝ} (hb : LeastSquaresIntercept P (fun ω => (U 0 ω).point 1) b)
    (hR : R.IsRidgeIntercept SR lam) (hl : 0 ≤ lam) (hμ : 1 ≤ μ) (h1 : 0 < κ) (h2 : κ ≤ 1 / 2) (hr : 1 ≤ ratio)
    (hp : ∀ x : ℤ, x = 0 ∨ x = 1 → ∀ a ∈ S, 1 / (S.card : ℝ) / ratio < condProb P (fun ω => (U 0 ω).point 1) x a ∧
      condProb P (fun ω => (U 0 ω).point 1) x a < 1 - 1 / (S.card : ℝ) / ratio) (hsize : ∀ n, 2 ≤ size n)
    {s : ℕ → Ω → ArmState (FrontDoor M ℝ) (Cell ℝ) ℝ} {ci : ℕ → Ω → Fl ℝ × Fl ℝ}
    (h : ∀ᵐ ω ∂P, Streams 1 cfg (ops R ridge0) rng (fun i => U i ω) size δ (fun n => s n ω) w (fun n => ci n ω))
    (h0 : ∀ᵐ ω ∂P, Regular S SR μ κ ratio (s 0 ω).eta) :
    ∀ᵐ ω ∂P, ScoresApproach (ops R ridge0) rng size w (fun n => s n ω) (fun i => (U i ω).point 1)
      (frontDoorPoint κ (clamp κ (P.real {ω | ((U 0 ω).point 1).2.1 = 1})) (planeValue b) (snap S (condProb P fun ω => (U 0 ω).point 1)) S) (fun p => 1 + |p.2.2|) := by
  have hVm : AEMeasurable (fun ω => (U 0 ω).point 1) P := (hU.ident 0).aemeasurable_fst
  have hli : ∀ i ω, Listed S ((U i ω).point 1) := fun i ω => listed (hfin i ω)
  have hr0 : ratio ≠ 0 := by intro h; rw [h] at hr; linarith
  have hm0 : 0 ≤ 1 / (S.card : ℝ) / ratio := by positivity
  obtain ⟨a0, ha0⟩ : S.Nonempty := by
    obtain ⟨ω⟩ := nonempty_of_isProbabilityMeasure P
    obtain ⟨a, ha, -⟩ := (hfin 0 ω).2
    exact ⟨a, ha⟩
  have hrow : ∀ x : ℤ, x = 0 ∨ x = 1 → P.real {ω | ((U 0 ω).point 1).2.1 = x} ≠ 0 := fun x hx => row_pos hm0 (hp x hx a0 ha0).1
  obtain ⟨r1, r2⟩ := row_probs hVm fun ω => (hli 0 ω).1
  have q0 : 0 < ∫ ω, ((U 0 ω).point 1).2.1 ∂P := by
    rw [r1]
    have := hrow 1 (Or.inr rfl)
    rw [Int.cast_one] at this
    exact lt_of_le_of_ne measureReal_nonneg this.symm
  have q1 : ∫ ω, ((U 0 ω).point 1).2.1 ∂P < 1 := by
    rw [r1]
    have := hrow 0 (Or.inl rfl)
    rw [Int.cast_zero] at this
    have h3 := lt_of_le_of_ne measureReal_nonneg this.symm
    rw [r2] at h3
    linarith
  have hx := fold_slln hU rng size w (f := 0) (by omega) hsize (g := fun p => p.2.1) (by fun_prop) ((listed_memLp hVm (hli 0) 1 1).integrable le_rfl)
  have hrid := intercept_tendsto hU (listed_memLp hVm (hli 0) 2) hy hnd hb rng hsize w hl
  have hfr := freq_tendsto hU hfin rng hsize w
  filter_upwards [hx, hrid, hfr, h, h0] with ω a1 a2 a3 a4 a5
  have hreg := stream_regular hR hμ hr0 h2 hsize a4 a5 fun i => hfin i ω
  have hen := AIPW.eventually_enough (u := fun i => U i ω) hsize (fun i => (hfin i ω).binary) q0 q1 a1 μ
  have hch : ∀ n, ∃ c : Fin 3 → ℝ,
      (μ ≤ Obs.treated ((foldIdx rng size w 0 (n + 1)).map fun i => U i ω) ∧ μ ≤ Obs.control ((foldIdx rng size w 0 (n + 1)).map fun i => U i ω)) →
        FittedOn R lam κ ((foldIdx rng size w 0 (n + 1)).map fun i => U i ω) (s (n + 1) ω).eta c := by
    intro n
    by_cases hc : μ ≤ Obs.treated ((foldIdx rng size w 0 (n + 1)).map fun i => U i ω) ∧ μ ≤ Obs.control ((foldIdx rng size w 0 (n + 1)).map fun i => U i ω)
    · obtain ⟨θ', hf⟩ := (hreg n).2 hc
      exact ⟨θ', fun _ => hf⟩
    · exact ⟨0, fun h => absurd h hc⟩
  choose c hc using hch
  have hb' : Tendsto c atTop (𝓝 b) := by
    have := a2 (fun n => c (n - 1)) (by
      obtain ⟨N, hN⟩ := eventually_atTop.1 hen
      refine eventually_atTop.2 ⟨N + 1, fun n hn t' => ?_⟩
      obtain ⟨m, rfl⟩ : ∃ m, n = m + 1 := ⟨n - 1, by omega⟩
      exact (hc m (hN m (by omega))).ridge t')
    exact this.comp (tendsto_add_atTop_nat 1)
  have hq' : Tendsto (fun n => (s (n + 1) ω).eta.expProb) atTop (𝓝 (clamp κ (P.real {ω | ((U 0 ω).point 1).2.1 = 1}))) := by
    have h3 := ((clamp_continuous κ).tendsto _).comp (a1.comp (tendsto_add_atTop_nat 1))
    rw [r1] at h3
    refine h3.congr' ?_
    filter_upwards [hen] with n hn
    rw [(hc n hn).q, List.map_map]
    rfl
  have hfin' : ∀ x : ℤ, x = 0 ∨ x = 1 → ∀ a ∈ S, ∀ᶠ n in atTop,
      1 / (S.card : ℝ) / ratio ≤ unitFreq ((foldIdx rng size w 0 (n + 1)).map fun i => U i ω) x a ∧
        unitFreq ((foldIdx rng size w 0 (n + 1)).map fun i => U i ω) x a ≤ 1 - 1 / (S.card : ℝ) / ratio := by
    intro x hx a ha
    have h3 := (a3 x a (hrow x hx)).comp (tendsto_add_atTop_nat 1)
    obtain ⟨p1, p2⟩ := hp x hx a ha
    filter_upwards [h3.eventually_const_le p1, h3.eventually_le_const p2] with n b1 b2
    exact ⟨b1, b2⟩
  have hexact : ∀ x : ℤ, x = 0 ∨ x = 1 → ∀ᶠ n in atTop, ∀ a ∈ S, [Cell.int a] ∈ (s (n + 1) ω).eta.cpd.zValues ∧
      tableOf (s (n + 1) ω).eta x a = unitFreq ((foldIdx rng size w 0 (n + 1)).map fun i => U i ω) x a := by
    intro x hx
    filter_upwards [hen, (Finset.eventually_all S).2 (hfin' x hx)] with n hn b1
    exact table_freq hr (hreg (n + 1)).1 (hc n hn) b1
  have htab : ∀ x : ℤ, x = 0 ∨ x = 1 → ∀ a ∈ S, Tendsto (fun n => tableOf (s (n + 1) ω).eta x a) atTop (𝓝 (condProb P (fun ω => (U 0 ω).point 1) x a)) := by
    intro x hx a ha
    refine ((a3 x a (hrow x hx)).comp (tendsto_add_atTop_nat 1)).congr' ?_
    filter_upwards [hexact x hx] with n hn
    exact (hn a ha).2.symm
  have hmu : ∀ x a, Tendsto (fun n => planeValue (c n) x a) atTop (𝓝 (planeValue b x a)) := by
    intro x a
    have hj := fun j => (tendsto_pi_nhds.1 hb') j
    exact ((hj 0).add ((hj 1).mul_const x)).add ((hj 2).mul_const a)
  set q := clamp κ (P.real {ω | ((U 0 ω).point 1).2.1 = 1}) with hqd
  have hqm : κ ≤ q ∧ q ≤ 1 - κ := clamp_mem h2 _
  have hpt : ∀ p, Listed S p → Tendsto (fun n => frontDoorPoint κ (s (n + 1) ω).eta.expProb (planeValue (c n)) (tableOf (s (n + 1) ω).eta) S p) atTop
      (𝓝 (frontDoorPoint κ q (planeValue b) (snap S (condProb P fun ω => (U 0 ω).point 1)) S p)) := by
    intro p hp'
    rw [point_snap _ _ _ hp']
    refine point_tendsto h1 h2 hq' (by linarith [hqm.1]) (by linarith [hqm.2]) hmu (fun a ha => ?_) (fun a ha => ?_) hp'
    · have := htab 0 (Or.inl rfl) a ha
      rwa [Int.cast_zero] at this
    · have := htab 1 (Or.inr rfl) a ha
      rwa [Int.cast_one] at this
  set D : ℕ → (Fin 1 → ℝ) × ℝ × ℝ → ℝ := fun n p => frontDoorPoint κ (s (n + 1) ω).eta.expProb (planeValue (c n)) (tableOf (s (n + 1) ω).eta) S p -
    frontDoorPoint κ q (planeValue b) (condProb P fun ω => (U 0 ω).point 1) S p with hD
  have hD0 : ∀ p, Listed S p → Tendsto (fun n => D n p) atTop (𝓝 0) := by
    intro p hp'
    have := hpt p hp'
    rw [point_snap _ _ _ hp'] at this
    have := this.sub_const (frontDoorPoint κ q (planeValue b) (condProb P fun ω => (U 0 ω).point 1) S p)
    rwa [sub_self] at this
  have hDa : ∀ n a x y, D n (cellPoint a x y) = D n (cellPoint a x 0) + y * (D n (cellPoint a x 1) - D n (cellPoint a x 0)) := by
    intro n a x y
    simp only [hD]
    rw [point_affine _ (planeValue (c n)) (tableOf (s (n + 1) ω).eta) a x y, point_affine q (planeValue b) _ a x y]
    ring
  refine ⟨fun n => frontDoorPoint κ (s (n + 1) ω).eta.expProb (planeValue (c n)) (tableOf (s (n + 1) ω).eta) S,
    fun n => ∑ a ∈ S, ((|D n (cellPoint a 0 0)| + |D n (cellPoint a 0 1)|) + (|D n (cellPoint a 1 0)| + |D n (cellPoint a 1 1)|)), ?_, fun n => ?_, fun n i => ?_, ?_⟩
  · have hz : ∀ a ∈ S, ∀ x : ℝ, x = 0 ∨ x = 1 → ∀ y, Tendsto (fun n => |D n (cellPoint a x y)|) atTop (𝓝 0) := by
      intro a ha x hx y
      have := (hD0 (cellPoint a x y) ⟨hx, a, ha, rfl⟩).abs
      rwa [abs_zero] at this
    have := tendsto_finsetSum S fun a ha => (((hz a ha 0 (Or.inl rfl) 0).add (hz a ha 0 (Or.inl rfl) 1)).add ((hz a ha 1 (Or.inr rfl) 0).add (hz a ha 1 (Or.inr rfl) 1)))
    simpa using this
  · exact Finset.sum_nonneg fun a _ => by positivity
  · rw [point_snap _ _ _ (hli i ω)]
    exact affine_bound (hDa n) (hli i ω)
  · filter_upwards [hen, hexact 0 (Or.inl rfl)] with n hn hz
    rcases (stream_split a4 (n + 1)).2 with ⟨-, h0⟩ | hs
    · omega
    refine ⟨_, _, hs, rfl, ?_, ?_, ?_⟩
    · simp [Obs.dataset_nUnits]
    · show Except.ok _ = _
      rw [(hc n hn).fit]
    · have := score_table h1 h2 (hreg (n + 1)).1 (hc n hn) (fun a ha => (hz a ha).1) (AIPW.fold_units (rng := rng) (w := w) (u := fun i => U i ω) hsize 1 (by omega) n)
        (fun v hv => by obtain ⟨i, -, rfl⟩ := List.mem_map.1 hv; exact hfin i ω)
      simp only [List.map_map, Function.comp_def] at this ⊢
      exact this

end
end FrontDoor
end Verif
