import Verif.Lemmas.Stream2

/-!
# Arms updated with blocks of a stream: scores linear in converging coefficients
-/

set_option linter.unusedSectionVars false
set_option linter.unusedSimpArgs false

namespace Verif
open MeasureTheory ProbabilityTheory Filter Topology

namespace Arm
section
variable {Ω T E W : Type} [MeasurableSpace Ω] [MeasurableSpace T] {P : Measure Ω} [IsProbabilityMeasure P] {V : ℕ → Ω → T} {m : ℕ}

theorem linear_measurable {h : T → Fin m → ℝ} (hh : ∀ j, Measurable fun p => h p j) (c : Fin m → ℝ) : Measurable fun p => ∑ j, c j * h p j := by
  fun_prop

theorem linear_memLp {V : Ω → T} {h : T → Fin m → ℝ} {p : ENNReal} (hL : ∀ j, MemLp (fun ω => h (V ω) j) p P) (c : Fin m → ℝ) :
    MemLp (fun ω => ∑ j, c j * h (V ω) j) p P :=
  memLp_finsetSum _ fun j _ => (hL j).const_mul (c j)

theorem abs_memLp {V : Ω → T} {h : T → Fin m → ℝ} {p : ENNReal} (hL : ∀ j, MemLp (fun ω => h (V ω) j) p P) :
    MemLp (fun ω => ∑ j, |h (V ω) j|) p P :=
  memLp_finsetSum _ fun j _ => (hL j).abs

/-- scores with converging coefficients are close to scores with the limits -/
theorem fold_close (hV : Iid P V) (rng : Rng W ℝ) {size : ℕ → ℕ} (hsize : ∀ n, 2 ≤ size n) (w : ℕ → W) {h : T → Fin m → ℝ}
    (hh : ∀ j, Measurable fun p => h p j) {p : ℕ} (hp : 1 ≤ p) (hL : ∀ j, MemLp (fun ω => h (V 0 ω) j) p P) {c : Fin m → ℝ}
    {cn : ℕ → Ω → Fin m → ℝ} (hcn : ∀ᵐ ω ∂P, Tendsto (fun n => cn n ω) atTop (𝓝 c)) :
    ∀ᵐ ω ∂P, ∃ ε : ℕ → ℝ, Tendsto ε atTop (𝓝 0) ∧ ∀ n, Close p (ε n) ((foldIdx rng size w 1 (n + 1)).map fun i => ∑ j, cn n ω j * h (V i ω) j)
      ((foldIdx rng size w 1 (n + 1)).map fun i => ∑ j, c j * h (V i ω) j) := by
  have hi : Integrable (fun ω => (∑ j, |h (V 0 ω) j|) ^ p) P := by
    have := (abs_memLp hL).integrable_norm_pow (by omega)
    refine this.congr (Eventually.of_forall fun ω => ?_)
    simp only [Real.norm_eq_abs]
    rw [abs_of_nonneg (Finset.sum_nonneg fun j _ => abs_nonneg _)]
  have hs := fold_slln hV rng size w (f := 1) (by omega) hsize (g := fun p' => (∑ j, |h p' j|) ^ p) (by fun_prop) hi
  filter_upwards [hs, hcn] with ω h1 h2
  exact scores_close hp (fun i => h (V i ω)) c (fun n => cn n ω) h2 (fun n => foldIdx rng size w 1 (n + 1)) (h1.comp (tendsto_add_atTop_nat 1))

variable {k : ℕ} {cfg : SSConfig (Cell ℝ) ℝ} {ops : EtaOps E (Cell ℝ) ℝ} {rng : Rng W ℝ} {U : ℕ → Ω → Obs ℝ} {size : ℕ → ℕ}
  {s : ℕ → Ω → ArmState E (Cell ℝ) ℝ} {w : ℕ → W} {ci : ℕ → Ω → Fl ℝ × Fl ℝ}

theorem linear_estimates (hV : Iid P V) (hsize : ∀ n, 2 ≤ size n) {h : T → Fin m → ℝ}
    (hh : ∀ j, Measurable fun p => h p j) (hL : ∀ j, MemLp (fun ω => h (V 0 ω) j) 2 P) {c : Fin m → ℝ}
    {cn : ℕ → Ω → Fin m → ℝ} (hcn : ∀ᵐ ω ∂P, Tendsto (fun n => cn n ω) atTop (𝓝 c)) {δ : Fl ℝ}
    (hst : ∀ᵐ ω ∂P, Streams k cfg ops rng (fun i => U i ω) size δ (fun n => s n ω) w (fun n => ci n ω)) (hrep : ScoreRepeatable ops)
    (hev : ∀ᵐ ω ∂P, ∀ᶠ n in atTop, EvaluatedOn ops (s (n + 1) ω) ((foldIdx rng size w 1 (n + 1)).map fun i => ∑ j, cn n ω j * h (V i ω) j)) :
    ∀ᵐ ω ∂P, EstimatesConverge (fun n => s n ω) (∫ ω, ∑ j, c j * h (V 0 ω) j ∂P) Var[fun ω => ∑ j, c j * h (V 0 ω) j; P] := by
  obtain ⟨e, he, hidx⟩ := foldIdx_enumerated rng size w (f := 1) (by omega) hsize
  have hX := (hV.precomp he).comp (linear_measurable hh c)
  have hid := (hV.ident (e 0)).comp (linear_measurable hh c)
  have hc2 := consistent2 hX (hid.symm.memLp_snd (linear_memLp hL c))
  have e1 : ∫ ω, ∑ j, c j * h (V (e 0) ω) j ∂P = ∫ ω, ∑ j, c j * h (V 0 ω) j ∂P := hid.integral_eq
  have e2 : Var[fun ω => ∑ j, c j * h (V (e 0) ω) j; P] = Var[fun ω => ∑ j, c j * h (V 0 ω) j; P] := hid.variance_eq
  rw [← e1, ← e2]
  filter_upwards [hc2, fold_close (p := 2) hV rng hsize w hh (by omega) (by exact_mod_cast hL) hcn, hst, hev] with ω h1 ⟨ε, h2, h3⟩ h4 h5
  refine stream_estimates h4 hrep h5 (ys := fun n => (List.range n).map fun i => ∑ j, c j * h (V (e i) ω) j) (by simp) h1.1 h1.2
    (N := fun n => (foldIdx rng size w 1 (n + 1)).length) ((foldIdx_atTop rng size w (by omega) hsize).comp (tendsto_add_atTop_nat 1)) h2 fun n => ?_
  have h6 := h3 n
  rw [show ((foldIdx rng size w 1 (n + 1)).map fun i => ∑ j, c j * h (V i ω) j) =
    (List.range (foldIdx rng size w 1 (n + 1)).length).map fun i => ∑ j, c j * h (V (e i) ω) j from by
      conv_lhs => rw [hidx (n + 1)]
      rw [List.map_map]; rfl] at h6
  exact h6

theorem linear_intervals (hV : Iid P V) (hsize : ∀ n, 2 ≤ size n) {h : T → Fin m → ℝ}
    (hh : ∀ j, Measurable fun p => h p j) (hL : ∀ j, MemLp (fun ω => h (V 0 ω) j) 4 P) {c : Fin m → ℝ}
    {cn : ℕ → Ω → Fin m → ℝ} (hcn : ∀ᵐ ω ∂P, Tendsto (fun n => cn n ω) atTop (𝓝 c)) {δ : ℝ} (halg : cfg.alg = .clt ∨ cfg.alg = .chi2)
    (hst : ∀ᵐ ω ∂P, Streams k cfg ops rng (fun i => U i ω) size (.fin δ) (fun n => s n ω) w (fun n => ci n ω)) (hrep : ScoreRepeatable ops)
    (hev : ∀ᵐ ω ∂P, ∀ᶠ n in atTop, EvaluatedOn ops (s (n + 1) ω) ((foldIdx rng size w 1 (n + 1)).map fun i => ∑ j, cn n ω j * h (V i ω) j)) :
    ∀ᵐ ω ∂P, IntervalsConverge (fun n => ci n ω) Var[fun ω => ∑ j, c j * h (V 0 ω) j; P] := by
  obtain ⟨e, he, hidx⟩ := foldIdx_enumerated rng size w (f := 1) (by omega) hsize
  have hX := (hV.precomp he).comp (linear_measurable hh c)
  have hid := (hV.ident (e 0)).comp (linear_measurable hh c)
  have hc4 := hX.consistent (hid.symm.memLp_snd (linear_memLp hL c))
  have e2 : Var[fun ω => ∑ j, c j * h (V (e 0) ω) j; P] = Var[fun ω => ∑ j, c j * h (V 0 ω) j; P] := hid.variance_eq
  rw [← e2]
  filter_upwards [hc4, fold_close (p := 4) hV rng hsize w hh (by omega) (by exact_mod_cast hL) hcn, hst, hev] with ω h1 ⟨ε, h2, h3⟩ h4 h5
  refine stream_intervals h4 halg hrep h5 (ys := fun n => (List.range n).map fun i => ∑ j, c j * h (V (e i) ω) j) (by simp) h1.1 h1.2.1 h1.2.2 (variance_nonneg _ _)
    (N := fun n => (foldIdx rng size w 1 (n + 1)).length) (fun n => foldIdx_length rng size w (by omega) hsize _) h2 fun n => ?_
  have h6 := h3 n
  rw [show ((foldIdx rng size w 1 (n + 1)).map fun i => ∑ j, c j * h (V i ω) j) =
    (List.range (foldIdx rng size w 1 (n + 1)).length).map fun i => ∑ j, c j * h (V (e i) ω) j from by
      conv_lhs => rw [hidx (n + 1)]
      rw [List.map_map]; rfl] at h6
  exact h6

end
end Arm
end Verif
