import Verif.Lemmas.Stream
import Verif.Props.ChiSquare

/-!
# Arms updated with blocks of a stream: limits
-/

set_option linter.unusedSectionVars false
set_option linter.unusedSimpArgs false

namespace Verif
open MeasureTheory ProbabilityTheory Filter Topology

/-! ## Law of large numbers along a fold -/

section
variable {Ω T W : Type} [MeasurableSpace Ω] [MeasurableSpace T] {P : Measure Ω} [IsProbabilityMeasure P] {X : ℕ → Ω → T}

theorem Iid.precomp (h : Iid P X) {e : ℕ → ℕ} (he : Function.Injective e) : Iid P fun i => X (e i) :=
  ⟨h.indep.precomp he, fun i => (h.ident (e i)).trans (h.ident (e 0)).symm⟩

/-- the positions of a fold list the values of an injective sequence -/
theorem foldIdx_enumerated (rng : Rng W ℝ) (size : ℕ → ℕ) (w : ℕ → W) {f : ℕ} (hf : f < 2) (hsize : ∀ n, 2 ≤ size n) :
    ∃ e : ℕ → ℕ, Function.Injective e ∧ ∀ n, foldIdx rng size w f n = (List.range (foldIdx rng size w f n).length).map e :=
  chain_enumerated _ (fun _ => ⟨_, rfl⟩) (foldIdx_length rng size w hf hsize) (foldIdx_nodup rng size w f)

theorem foldIdx_atTop (rng : Rng W ℝ) (size : ℕ → ℕ) (w : ℕ → W) {f : ℕ} (hf : f < 2) (hsize : ∀ n, 2 ≤ size n) :
    Tendsto (fun n => (foldIdx rng size w f n).length) atTop atTop :=
  tendsto_atTop_mono (foldIdx_length rng size w hf hsize) tendsto_id

theorem fold_slln (h : Iid P X) (rng : Rng W ℝ) (size : ℕ → ℕ) (w : ℕ → W) {f : ℕ} (hf : f < 2) (hsize : ∀ n, 2 ≤ size n)
    {g : T → ℝ} (hg : Measurable g) (hi : Integrable (fun ω => g (X 0 ω)) P) :
    ∀ᵐ ω ∂P, Tendsto (fun n => pmean ((foldIdx rng size w f n).map fun i => g (X i ω))) atTop (𝓝 (∫ ω, g (X 0 ω) ∂P)) := by
  obtain ⟨e, he, hidx⟩ := foldIdx_enumerated rng size w hf hsize
  have hid := (h.ident (e 0)).comp hg
  have h1 := (h.precomp he).slln hg (hid.integrable_iff.mpr hi)
  have e0 : ∫ ω, g (X (e 0) ω) ∂P = ∫ ω, g (X 0 ω) ∂P := hid.integral_eq
  rw [e0] at h1
  filter_upwards [h1] with ω hω
  refine (hω.comp (foldIdx_atTop rng size w hf hsize)).congr fun n => ?_
  rw [Function.comp_apply, hidx n, List.map_map, ← pmean_range]
  simp [Function.comp_def]

end

/-! ## Scores that are linear in estimated coefficients -/

/-- the scores `Σ j, c j * h j` of the units `is` -/
theorem scores_close {m : ℕ} {p : ℕ} (hp : 1 ≤ p) (h : ℕ → Fin m → ℝ) (c : Fin m → ℝ) (cn : ℕ → Fin m → ℝ) (hcn : Tendsto cn atTop (𝓝 c))
    (idx : ℕ → List ℕ) {t : ℝ} (ht : Tendsto (fun n => pmean ((idx n).map fun i => (∑ j, |h i j|) ^ p)) atTop (𝓝 t)) :
    ∃ ε : ℕ → ℝ, Tendsto ε atTop (𝓝 0) ∧
      ∀ n, Close p (ε n) ((idx n).map fun i => ∑ j, cn n j * h i j) ((idx n).map fun i => ∑ j, c j * h i j) := by
  have hd : Tendsto (fun n => ∑ j, |cn n j - c j|) atTop (𝓝 0) := by
    have : Tendsto (fun n => ∑ j, |cn n j - c j|) atTop (𝓝 (∑ j : Fin m, |c j - c j|)) :=
      tendsto_finsetSum _ fun j _ => (((tendsto_pi_nhds.1 hcn) j).sub_const (c j)).abs
    simpa using this
  have hpos : ∀ n, 0 ≤ pmean ((idx n).map fun i => (∑ j, |h i j|) ^ p) := fun n =>
    pmean_nonneg _ _ fun i _ => pow_nonneg (Finset.sum_nonneg fun j _ => abs_nonneg _) p
  refine ⟨fun n => (∑ j, |cn n j - c j|) * (1 + pmean ((idx n).map fun i => (∑ j, |h i j|) ^ p)), ?_, fun n => ⟨by simp, ?_, ?_⟩⟩
  · simpa using hd.mul (ht.const_add 1)
  · exact mul_nonneg (Finset.sum_nonneg fun j _ => abs_nonneg _) (by linarith [hpos n])
  · rw [List.zip_map', List.map_map, List.length_map]
    set D := ∑ j, |cn n j - c j| with hD
    set T := pmean ((idx n).map fun i => (∑ j, |h i j|) ^ p) with hT
    have hD0 : 0 ≤ D := Finset.sum_nonneg fun j _ => abs_nonneg _
    have h1 : ∀ i ∈ idx n, |∑ j, cn n j * h i j - ∑ j, c j * h i j| ^ p ≤ D ^ p * (∑ j, |h i j|) ^ p := by
      intro i _
      rw [← mul_pow]
      refine pow_le_pow_left₀ (abs_nonneg _) ?_ p
      rw [← Finset.sum_sub_distrib]
      refine (Finset.abs_sum_le_sum_abs _ _).trans ?_
      rw [Finset.mul_sum]
      refine Finset.sum_le_sum fun j _ => ?_
      rw [← sub_mul, abs_mul]
      exact mul_le_mul_of_nonneg_right (Finset.single_le_sum (f := fun j => |cn n j - c j|) (fun j _ => abs_nonneg _) (Finset.mem_univ j)) (abs_nonneg _)
    refine (List.sum_le_sum h1).trans ?_
    rw [sum_map_mul']
    have h2 : ((idx n).map fun i => (∑ j, |h i j|) ^ p).sum = (idx n).length * T := by
      by_cases hn : (idx n).length = 0
      · rw [List.length_eq_zero_iff.1 hn]; simp
      · rw [hT]
        unfold pmean
        rw [List.length_map]
        have : ((idx n).length : ℝ) ≠ 0 := by exact_mod_cast hn
        field_simp
    rw [h2, mul_pow]
    have h3 : T ≤ (1 + T) ^ p := by
      have hT0 := hpos n
      calc T ≤ 1 + T := by linarith
        _ = (1 + T) ^ 1 := (pow_one _).symm
        _ ≤ (1 + T) ^ p := pow_le_pow_right₀ (by linarith) hp
    have h4 : 0 ≤ ((idx n).length : ℝ) * D ^ p := by positivity
    calc D ^ p * ((idx n).length * T) = ((idx n).length * D ^ p) * T := by ring
      _ ≤ ((idx n).length * D ^ p) * (1 + T) ^ p := mul_le_mul_of_nonneg_left h3 h4
      _ = _ := by ring

/-! ## Limits along one path -/

namespace Arm
variable {E W : Type} {k : ℕ} {cfg : SSConfig (Cell ℝ) ℝ} {ops : EtaOps E (Cell ℝ) ℝ} {rng : Rng W ℝ} {u : ℕ → Obs ℝ} {size : ℕ → ℕ}
  {δ : ℝ} {s : ℕ → ArmState E (Cell ℝ) ℝ} {w : ℕ → W} {ci : ℕ → Fl ℝ × Fl ℝ}

/-- the estimates converge if the scores are close to a sample whose mean and variance converge -/
theorem stream_estimates {δ : Fl ℝ} (h : Streams k cfg ops rng u size δ s w ci) (hrep : ScoreRepeatable ops) {xs : ℕ → List ℝ}
    (hev : ∀ᶠ n in atTop, EvaluatedOn ops (s (n + 1)) (xs n)) {ys : ℕ → List ℝ} (hys : ∀ n, (ys n).length = n) {m v : ℝ}
    (hm : Tendsto (fun n => pmean (ys n)) atTop (𝓝 m)) (hv : Tendsto (fun n => pvar (ys n)) atTop (𝓝 v))
    {N : ℕ → ℕ} (hN : Tendsto N atTop atTop) {ε : ℕ → ℝ} (hε : Tendsto ε atTop (𝓝 0)) (hc : ∀ n, Close 2 (ε n) (xs n) (ys (N n))) :
    EstimatesConverge s m v := by
  obtain ⟨a1, a2⟩ := pvar_tendsto hN hys hm hv hε hc
  have e1 : ∀ᶠ n in atTop, (s (n + 1)).ate = some (.fin (pmean (xs n))) ∧ (s (n + 1)).varEst = some (.fin (pvar (xs n))) := by
    filter_upwards [hev] with n hn
    obtain ⟨d, w1, -, hup⟩ := h.step n
    obtain ⟨-, b1, b2⟩ := est_evaluated hrep hup hn
    exact ⟨b2, b1⟩
  refine ⟨fun n => pmean (xs (n - 1)), fun n => pvar (xs (n - 1)), ?_, ?_, ?_⟩
  · obtain ⟨n0, hn0⟩ := eventually_atTop.1 e1
    refine eventually_atTop.2 ⟨n0 + 1, fun n hn => ?_⟩
    obtain ⟨j, rfl⟩ : ∃ j, n = j + 1 := ⟨n - 1, by omega⟩
    exact hn0 j (by omega)
  · exact a1.comp (tendsto_sub_atTop_nat 1)
  · exact a2.comp (tendsto_sub_atTop_nat 1)

/-- the intervals converge if the scores are close to a sample with convergent moments -/
theorem stream_intervals (h : Streams k cfg ops rng u size (.fin δ) s w ci) (halg : cfg.alg = .clt ∨ cfg.alg = .chi2) (hrep : ScoreRepeatable ops) {xs : ℕ → List ℝ}
    (hev : ∀ᶠ n in atTop, EvaluatedOn ops (s (n + 1)) (xs n)) {ys : ℕ → List ℝ} (hys : ∀ n, (ys n).length = n) {m v q : ℝ}
    (hm : Tendsto (fun n => pmean (ys n)) atTop (𝓝 m)) (hv : Tendsto (fun n => pvar (ys n)) atTop (𝓝 v))
    (hq : Tendsto (fun n => pvar (sqDevs (ys n))) atTop (𝓝 q)) (hv0 : 0 ≤ v)
    {N : ℕ → ℕ} (hN : ∀ n, n + 1 ≤ N n) {ε : ℕ → ℝ} (hε : Tendsto ε atTop (𝓝 0)) (hc : ∀ n, Close 4 (ε n) (xs n) (ys (N n))) :
    IntervalsConverge ci v := by
  have hNt : Tendsto N atTop atTop := tendsto_atTop_mono (fun n => (Nat.le_succ n).trans (hN n)) tendsto_id
  obtain ⟨n0, hn0⟩ := eventually_atTop.1 hev
  have hsh := tendsto_add_atTop_nat n0
  choose d w' hd hup using h.step
  have hup' : ∀ n, ssUpdate cfg ops realLib rng (d (n + n0)) (.fin δ) (s (n + n0), w (n + n0)) =
      (.ok ((ci (n + n0)).1, (ci (n + n0)).2), s (n + n0 + 1), w' (n + n0)) := fun n => hup (n + n0)
  have main : ∃ l r : ℕ → ℝ, (∀ᶠ n in atTop, (ci (n + n0)).1 = .fin (l n) ∧ (ci (n + n0)).2 = .fin (r n)) ∧
      Tendsto l atTop (𝓝 v) ∧ Tendsto r atTop (𝓝 v) := by
    rcases halg with halg | halg
    · obtain ⟨l, r, h1, h2, h3⟩ := clt_path (N := fun n => N (n + n0)) (k := fun n => n + n0) (s := fun n => s (n + n0)) hys hm hv hq hv0 halg hrep (hNt.comp hsh) (fun n => hN _)
        (fun n => (stream_split h _).1) hup' (fun n => hn0 _ (by omega)) (hε.comp hsh) fun n => hc _
      exact ⟨l, r, Eventually.of_forall h1, h2, h3⟩
    · exact chi2_path hys hm hv halg hrep (hNt.comp hsh) hup' (fun n => hn0 _ (by omega)) (hε.comp hsh) fun n => (hc _).two
  obtain ⟨l, r, h1, h2, h3⟩ := main
  refine ⟨fun n => l (n - n0), fun n => r (n - n0), ?_, h2.comp (tendsto_sub_atTop_nat n0), h3.comp (tendsto_sub_atTop_nat n0)⟩
  have h1' : ∀ᶠ n in atTop, ci (n + n0) = (.fin (l (n + n0 - n0)), .fin (r (n + n0 - n0))) := by
    filter_upwards [h1] with n hn
    rw [Nat.add_sub_cancel]
    exact Prod.ext hn.1 hn.2
  rw [← eventually_map (m := fun n => n + n0) (P := fun n => ci n = (.fin (l (n - n0)), .fin (r (n - n0)))), map_add_atTop_eq_nat] at h1'
  exact h1'

end Arm
end Verif
