import Verif.Lemmas.Stream2

/-!
# Arms updated with blocks of a stream: scores that approach a limit under an envelope
-/

set_option linter.unusedSectionVars false
set_option linter.unusedSimpArgs false

namespace Verif
open MeasureTheory ProbabilityTheory Filter Topology

/-- scores that differ from a limit by at most `ρ n * g i` -/
theorem envelope_close {p : ℕ} (hp : 1 ≤ p) (F : ℕ → ℕ → ℝ) (f g : ℕ → ℝ) (hg : ∀ i, 0 ≤ g i) {ρ : ℕ → ℝ} (hρ : Tendsto ρ atTop (𝓝 0)) (hρ0 : ∀ n, 0 ≤ ρ n)
    (hF : ∀ n i, |F n i - f i| ≤ ρ n * g i) (idx : ℕ → List ℕ) {t : ℝ} (ht : Tendsto (fun n => pmean ((idx n).map fun i => g i ^ p)) atTop (𝓝 t)) :
    ∃ ε : ℕ → ℝ, Tendsto ε atTop (𝓝 0) ∧ ∀ n, Close p (ε n) ((idx n).map (F n)) ((idx n).map f) := by
  have hpos : ∀ n, 0 ≤ pmean ((idx n).map fun i => g i ^ p) := fun n => pmean_nonneg _ _ fun i _ => pow_nonneg (hg i) p
  refine ⟨fun n => ρ n * (1 + pmean ((idx n).map fun i => g i ^ p)), ?_, fun n => ⟨by simp, ?_, ?_⟩⟩
  · simpa using hρ.mul (ht.const_add 1)
  · exact mul_nonneg (hρ0 n) (by linarith [hpos n])
  · rw [List.zip_map', List.map_map, List.length_map]
    set D := ρ n with hD
    set T := pmean ((idx n).map fun i => g i ^ p) with hT
    have hD0 : 0 ≤ D := hρ0 n
    have h1 : ∀ i ∈ idx n, |F n i - f i| ^ p ≤ D ^ p * g i ^ p := by
      intro i _
      rw [← mul_pow]
      exact pow_le_pow_left₀ (abs_nonneg _) (hF n i) p
    refine (List.sum_le_sum h1).trans ?_
    rw [sum_map_mul']
    have h2 : ((idx n).map fun i => g i ^ p).sum = (idx n).length * T := by
      by_cases hn : (idx n).length = 0
      · rw [List.length_eq_zero_iff.1 hn]; simp
      · rw [hT]
        unfold pmean
        rw [List.length_map]
        have : ((idx n).length : ℝ) ≠ 0 := by exact_mod_cast hn
        field_simp
    rw [h2, mul_pow]
    have h3 : T ≤ (1 + T) ^ p := by
      have hT0 := hpos n
      calc T ≤ 1 + T := by linarith
        _ = (1 + T) ^ 1 := (pow_one _).symm
        _ ≤ (1 + T) ^ p := pow_le_pow_right₀ (by linarith) hp
    have h4 : 0 ≤ ((idx n).length : ℝ) * D ^ p := by positivity
    calc D ^ p * ((idx n).length * T) = ((idx n).length * D ^ p) * T := by ring
      _ ≤ ((idx n).length * D ^ p) * (1 + T) ^ p := mul_le_mul_of_nonneg_left h3 h4
      _ = _ := by ring

namespace Arm
variable {Ω T E W : Type} [MeasurableSpace Ω] [MeasurableSpace T] {P : Measure Ω} [IsProbabilityMeasure P] {V : ℕ → Ω → T}
  {k : ℕ} {cfg : SSConfig (Cell ℝ) ℝ} {ops : EtaOps E (Cell ℝ) ℝ} {rng : Rng W ℝ} {U : ℕ → Ω → Obs ℝ} {size : ℕ → ℕ}
  {s : ℕ → Ω → ArmState E (Cell ℝ) ℝ} {w : ℕ → W} {ci : ℕ → Ω → Fl ℝ × Fl ℝ} {f g : T → ℝ}

/-- On the path `ω`, the scores of the second fold eventually exist and differ from `f` by at most `ρ n * g`, where `ρ` tends to 0. -/
def ScoresApproach (ops : EtaOps E (Cell ℝ) ℝ) (rng : Rng W ℝ) (size : ℕ → ℕ) (w : ℕ → W) (s : ℕ → ArmState E (Cell ℝ) ℝ) (v : ℕ → T) (f g : T → ℝ) : Prop :=
  ∃ (F : ℕ → T → ℝ) (ρ : ℕ → ℝ), Tendsto ρ atTop (𝓝 0) ∧ (∀ n, 0 ≤ ρ n) ∧ (∀ n i, |F n (v i) - f (v i)| ≤ ρ n * g (v i)) ∧
    ∀ᶠ n in atTop, EvaluatedOn ops (s (n + 1)) ((foldIdx rng size w 1 (n + 1)).map fun i => F n (v i))

theorem fold_envelope (hV : Iid P V) (hsize : ∀ n, 2 ≤ size n) (hg : Measurable g) {p : ℕ} (hp : 1 ≤ p) (hg0 : ∀ t, 0 ≤ g t)
    (hL : MemLp (fun ω => g (V 0 ω)) p P) :
    ∀ᵐ ω ∂P, Tendsto (fun n => pmean ((foldIdx rng size w 1 (n + 1)).map fun i => g (V i ω) ^ p)) atTop (𝓝 (∫ ω, g (V 0 ω) ^ p ∂P)) := by
  have hi : Integrable (fun ω => g (V 0 ω) ^ p) P := by
    have := hL.integrable_norm_pow (by omega)
    refine this.congr (Eventually.of_forall fun ω => ?_)
    simp only [Real.norm_eq_abs]
    rw [abs_of_nonneg (hg0 _)]
  filter_upwards [fold_slln hV rng size w (f := 1) (by omega) hsize (g := fun t => g t ^ p) (by fun_prop) hi] with ω h
  exact h.comp (tendsto_add_atTop_nat 1)

theorem envelope_estimates (hV : Iid P V) (hsize : ∀ n, 2 ≤ size n) (hf : Measurable f) (hfL : MemLp (fun ω => f (V 0 ω)) 2 P)
    (hg : Measurable g) (hg0 : ∀ t, 0 ≤ g t) (hgL : MemLp (fun ω => g (V 0 ω)) 2 P) {δ : Fl ℝ}
    (hst : ∀ᵐ ω ∂P, Streams k cfg ops rng (fun i => U i ω) size δ (fun n => s n ω) w (fun n => ci n ω)) (hrep : ScoreRepeatable ops)
    (hap : ∀ᵐ ω ∂P, ScoresApproach ops rng size w (fun n => s n ω) (fun i => V i ω) f g) :
    ∀ᵐ ω ∂P, EstimatesConverge (fun n => s n ω) (∫ ω, f (V 0 ω) ∂P) Var[fun ω => f (V 0 ω); P] := by
  obtain ⟨e, he, hidx⟩ := foldIdx_enumerated rng size w (f := 1) (by omega) hsize
  have hX := (hV.precomp he).comp hf
  have hid := (hV.ident (e 0)).comp hf
  have hc2 := consistent2 hX (hid.symm.memLp_snd hfL)
  have e1 : ∫ ω, f (V (e 0) ω) ∂P = ∫ ω, f (V 0 ω) ∂P := hid.integral_eq
  have e2 : Var[fun ω => f (V (e 0) ω); P] = Var[fun ω => f (V 0 ω); P] := hid.variance_eq
  rw [← e1, ← e2]
  filter_upwards [hc2, fold_envelope (rng := rng) (w := w) (p := 2) hV hsize hg (by omega) hg0 (by exact_mod_cast hgL), hst, hap] with ω h1 h2 h4 ⟨F, ρ, a1, a2, a3, a4⟩
  obtain ⟨ε, h5, h6⟩ := envelope_close (p := 2) (by omega) (fun n i => F n (V i ω)) (fun i => f (V i ω)) (fun i => g (V i ω)) (fun i => hg0 _) a1 a2 a3
    (fun n => foldIdx rng size w 1 (n + 1)) h2
  refine stream_estimates h4 hrep a4 (ys := fun n => (List.range n).map fun i => f (V (e i) ω)) (by simp) h1.1 h1.2
    (N := fun n => (foldIdx rng size w 1 (n + 1)).length) ((foldIdx_atTop rng size w (by omega) hsize).comp (tendsto_add_atTop_nat 1)) h5 fun n => ?_
  have h7 := h6 n
  rw [show ((foldIdx rng size w 1 (n + 1)).map fun i => f (V i ω)) =
    (List.range (foldIdx rng size w 1 (n + 1)).length).map fun i => f (V (e i) ω) from by
      conv_lhs => rw [hidx (n + 1)]
      rw [List.map_map]; rfl] at h7
  exact h7

theorem envelope_intervals (hV : Iid P V) (hsize : ∀ n, 2 ≤ size n) (hf : Measurable f) (hfL : MemLp (fun ω => f (V 0 ω)) 4 P)
    (hg : Measurable g) (hg0 : ∀ t, 0 ≤ g t) (hgL : MemLp (fun ω => g (V 0 ω)) 4 P) {δ : ℝ} (halg : cfg.alg = .clt ∨ cfg.alg = .chi2)
    (hst : ∀ᵐ ω ∂P, Streams k cfg ops rng (fun i => U i ω) size (.fin δ) (fun n => s n ω) w (fun n => ci n ω)) (hrep : ScoreRepeatable ops)
    (hap : ∀ᵐ ω ∂P, ScoresApproach ops rng size w (fun n => s n ω) (fun i => V i ω) f g) :
    ∀ᵐ ω ∂P, IntervalsConverge (fun n => ci n ω) Var[fun ω => f (V 0 ω); P] := by
  obtain ⟨e, he, hidx⟩ := foldIdx_enumerated rng size w (f := 1) (by omega) hsize
  have hX := (hV.precomp he).comp hf
  have hid := (hV.ident (e 0)).comp hf
  have hc4 := hX.consistent (hid.symm.memLp_snd hfL)
  have e2 : Var[fun ω => f (V (e 0) ω); P] = Var[fun ω => f (V 0 ω); P] := hid.variance_eq
  rw [← e2]
  filter_upwards [hc4, fold_envelope (rng := rng) (w := w) (p := 4) hV hsize hg (by omega) hg0 (by exact_mod_cast hgL), hst, hap] with ω h1 h2 h4 ⟨F, ρ, a1, a2, a3, a4⟩
  obtain ⟨ε, h5, h6⟩ := envelope_close (p := 4) (by omega) (fun n i => F n (V i ω)) (fun i => f (V i ω)) (fun i => g (V i ω)) (fun i => hg0 _) a1 a2 a3
    (fun n => foldIdx rng size w 1 (n + 1)) h2
  refine stream_intervals h4 halg hrep a4 (ys := fun n => (List.range n).map fun i => f (V (e i) ω)) (by simp) h1.1 h1.2.1 h1.2.2 (variance_nonneg _ _)
    (N := fun n => (foldIdx rng size w 1 (n + 1)).length) (fun n => foldIdx_length rng size w (by omega) hsize _) h5 fun n => ?_
  have h7 := h6 n
  rw [show ((foldIdx rng size w 1 (n + 1)).map fun i => f (V i ω)) =
    (List.range (foldIdx rng size w 1 (n + 1)).length).map fun i => f (V (e i) ω) from by
      conv_lhs => rw [hidx (n + 1)]
      rw [List.map_map]; rfl] at h7
  exact h7

end Arm
end Verif
