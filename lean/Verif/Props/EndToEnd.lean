import Verif.Lemmas.EndToEnd

/-!
# Property C99: uniform sampling of consistent arms ends with the best arm
-/

set_option linter.unusedSectionVars false
set_option linter.unusedSimpArgs false

namespace Verif
open MeasureTheory Filter Topology

namespace Bandit
open Arm
variable {Ω I E V : Type} [MeasurableSpace Ω] [DecidableEq I] {P : Measure Ω} {acfg : I → SSConfig (Cell ℝ) ℝ} {eops : I → EtaOps E (Cell ℝ) ℝ} {rng : Rng V ℝ} {cost : I → ℝ}
  {env : BanditEnv (Tape V) (Cell ℝ)} {cfg : BanditCfg I ℝ} {k0 : ℕ} {U : ℕ → Ω → Obs ℝ} {kArm : I → ℕ} {view : I → Obs ℝ → Obs ℝ} {δ : ℝ}
  {heap : I → I × ArmState E (Cell ℝ) ℝ} {θ v : I → ℝ}

/-- almost surely the arms run through converging streams -/
theorem ae_runs (v0 : V) (hlev : level cfg = .fin δ)
    (hshow : ∀ a ∈ cfg.arms, Shows (acfg a).transform k0 (kArm a) (view a))
    (hcons : ∀ a ∈ cfg.arms, Consistent P (kArm a) (acfg a) (eops a) rng (fun i ω => view a (U i ω)) cfg.unitsPerRound δ (heap a).2 (θ a) (v a)) :
    ∀ᵐ ω ∂P, ∃ (s : I → ℕ → ArmState E (Cell ℝ) ℝ) (ci : I → ℕ → Fl ℝ × Fl ℝ), ∀ a ∈ cfg.arms, s a 0 = (heap a).2 ∧
      ArmRuns acfg eops rng k0 cfg.arms cfg.unitsPerRound (level cfg) v0 (fun i => U i ω) a (s a) (ci a) ∧
      EstimatesConverge (s a) (θ a) (v a) ∧ IntervalsConverge (ci a) (v a) := by
  have h : ∀ᵐ ω ∂P, ∀ a ∈ {a | a ∈ cfg.arms}, ∃ s ci, s 0 = (heap a).2 ∧
      ArmRuns acfg eops rng k0 cfg.arms cfg.unitsPerRound (level cfg) v0 (fun i => U i ω) a s ci ∧ EstimatesConverge s (θ a) (v a) ∧ IntervalsConverge ci (v a) := by
    rw [ae_ball_iff (List.finite_toSet cfg.arms).countable]
    intro a ha
    filter_upwards [hcons a ha fun n => seedAt rng cfg.unitsPerRound v0 (n * cfg.arms.length + cfg.arms.idxOf a)] with ω ⟨s, ci, h0, h1, h2, h3⟩
    exact ⟨s, ci, h0, ⟨_, _, hshow a ha, by rw [hlev]; exact h1⟩, h2, h3⟩
  filter_upwards [h] with ω hω
  have hω' : ∀ a, ∃ s ci, a ∈ cfg.arms → s 0 = (heap a).2 ∧
      ArmRuns acfg eops rng k0 cfg.arms cfg.unitsPerRound (level cfg) v0 (fun i => U i ω) a s ci ∧ EstimatesConverge s (θ a) (v a) ∧ IntervalsConverge ci (v a) := by
    intro a
    by_cases ha : a ∈ cfg.arms
    · obtain ⟨s, ci, h⟩ := hω a ha
      exact ⟨s, ci, fun _ => h⟩
    · exact ⟨fun _ => (heap a).2, fun _ => (.nan, .nan), fun h => absurd h ha⟩
  choose s ci h using hω'
  exact ⟨s, ci, h⟩

theorem stateAt_zero {s : I → ℕ → ArmState E (Cell ℝ) ℝ} (hheap : ∀ a, (heap a).1 = a) (hs : ∀ a ∈ cfg.arms, s a 0 = (heap a).2) (u : ℕ → Obs ℝ) (v0 : V) :
    (heap, ⟨u, 0, v0⟩) = stateAt rng cfg.arms cfg.unitsPerRound heap s u v0 0 := by
  refine Prod.ext ?_ ?_
  · funext a
    simp only [stateAt, heapAt]
    split
    · rename_i ha
      rw [hs a ha]
      exact Prod.ext (hheap a) rfl
    · rfl
  · simp [stateAt, seedAt]

/-- **C99**: take consistent arms (`C97` and `C98` are about such arms; every arm may have its own covariates, nuisance parameter and cost), and let the best of them
be better than the others by more than `error_tol`, where the value of an arm is its cost times the variance of its score.  Fed with independent units, the uniform
algorithm almost surely raises no exception and comes to an end, whatever the sample limit (infinite or not) and the state of the generator that shuffles. -/
theorem C99_ends (hgen : env.generate = Tape.generate k0) (hnd : cfg.arms.Nodup) (h2 : 2 ≤ cfg.arms.length) (hlev : level cfg = .fin δ)
    {lim : Fl ℝ} (hlim : cfg.sampleLimit = some lim) {τ : ℝ} (htol : cfg.errorTol = .fin τ) (hτ : 0 ≤ τ) (hcov : ∀ i ω, (U i ω).z.length = k0)
    (hheap : ∀ a, (heap a).1 = a) (hshow : ∀ a ∈ cfg.arms, Shows (acfg a).transform k0 (kArm a) (view a))
    (hcons : ∀ a ∈ cfg.arms, Consistent P (kArm a) (acfg a) (eops a) rng (fun i ω => view a (U i ω)) cfg.unitsPerRound δ (heap a).2 (θ a) (v a))
    {b : I} {gap : ℝ} (hb : BestBy cfg.arms (fun a => cost a * v a) gap b) (hgap : τ < gap) (v0 : V) :
    ∀ᵐ ω ∂P, NeverRaises (uniformRun env (ssFamily acfg eops (Tape.rng rng) cost) cfg none) (heap, ⟨fun i => U i ω, 0, v0⟩) ∧
      Ends (uniformRun env (ssFamily acfg eops (Tape.rng rng) cost) cfg none) (heap, ⟨fun i => U i ω, 0, v0⟩) := by
  filter_upwards [ae_runs v0 hlev hshow hcons] with ω ⟨s, ci, h⟩
  have h0 := stateAt_zero (rng := rng) hheap (fun a ha => (h a ha).1) (fun i => U i ω) v0
  have hpost := fun fuel => (post_uniform_tape (X := fun _ _ => False) (cost := cost) (heap0 := heap) hnd (fun i => hcov i ω) (fun a ha => (h a ha).2.1) hgen h2 hlim fuel).returns h0
  have hno : NeverRaises (uniformRun env (ssFamily acfg eops (Tape.rng rng) cost) cfg none) (heap, ⟨fun i => U i ω, 0, v0⟩) := by
    intro n e s' he
    obtain ⟨o, s'', h1, -⟩ := hpost n
    rw [h1] at he
    cases he
  refine ⟨hno, C93_uniform hnd htol hτ ss_counts hno (fun a ha => ?_) hb hgap⟩
  intro e he
  obtain ⟨-, h1, h3, h4⟩ := h a ha
  obtain ⟨M, hM⟩ := settled_of_converge (cost := cost) h1 h3 h4 he
  refine ⟨M, fun n s' hn hle => ?_⟩
  obtain ⟨o, s'', e1, e2⟩ := hpost n
  rw [e1] at hn
  simp only [Prod.mk.injEq, Except.ok.injEq] at hn
  obtain ⟨rfl, rfl⟩ := hn
  obtain ⟨N, rfl⟩ := e2
  have hN : (stateAt rng cfg.arms cfg.unitsPerRound heap s (fun i => U i ω) v0 N).1 a = (a, s a N) := by
    simp only [stateAt, heapAt, if_pos ha]
  rw [hN] at hle ⊢
  refine hM N ?_
  rw [← (h1.state N).1]
  exact hle

/-- **C99**: almost surely all answers that are given after sufficiently many rounds name the best arm and no other, whatever the tolerance and the sample limit. -/
theorem C99_late_answers (hgen : env.generate = Tape.generate k0) (hnd : cfg.arms.Nodup) (h2 : 2 ≤ cfg.arms.length) (hlev : level cfg = .fin δ)
    (hcov : ∀ i ω, (U i ω).z.length = k0)
    (hheap : ∀ a, (heap a).1 = a) (hshow : ∀ a ∈ cfg.arms, Shows (acfg a).transform k0 (kArm a) (view a))
    (hcons : ∀ a ∈ cfg.arms, Consistent P (kArm a) (acfg a) (eops a) rng (fun i ω => view a (U i ω)) cfg.unitsPerRound δ (heap a).2 (θ a) (v a))
    {b : I} {gap : ℝ} (hb : BestBy cfg.arms (fun a => cost a * v a) gap b) (hgap : 0 < gap) (v0 : V) :
    ∀ᵐ ω ∂P, ∃ N, ∀ (tol lim : Fl ℝ) (fuel : ℕ) (r : BanditData I ℝ) s',
      uniformRun env (ssFamily acfg eops (Tape.rng rng) cost) { cfg with errorTol := tol, sampleLimit := some lim } none fuel (heap, ⟨fun i => U i ω, 0, v0⟩) =
        (.ok (some r), s') → N ≤ r.cum.length → r.best = [b] := by
  filter_upwards [ae_runs v0 hlev hshow hcons] with ω ⟨s, ci, h⟩
  have h0 := stateAt_zero (rng := rng) hheap (fun a ha => (h a ha).1) (fun i => U i ω) v0
  obtain ⟨M, hM⟩ := common_bound cfg.arms (fun a n => Settled (ssFamily acfg eops (Tape.rng rng) cost) (a, s a n) (cost a * v a) (gap / 4)) fun a ha => by
    obtain ⟨-, h1, h3, h4⟩ := h a ha
    exact settled_of_converge (cost := cost) h1 h3 h4 (by positivity)
  refine ⟨M, fun tol lim fuel r s' hr hle => ?_⟩
  obtain ⟨o, s'', e1, e2⟩ := (post_uniform_tape (X := fun _ _ => False) (cost := cost) (heap0 := heap) (cfg := { cfg with errorTol := tol, sampleLimit := some lim })
    hnd (fun i => hcov i ω) (fun a ha => (h a ha).2.1) hgen h2 rfl fuel).returns h0
  rw [hr] at e1
  simp only [Prod.mk.injEq, Except.ok.injEq] at e1
  obtain ⟨rfl, rfl⟩ := e1
  obtain ⟨n, hn, -, hans⟩ := e2
  have hset : ∀ a ∈ cfg.arms, Settled (ssFamily acfg eops (Tape.rng rng) cost) (heapAt cfg.arms heap s (n + 1) a) (cost a * v a) (gap / 4) := by
    intro a ha
    simp only [heapAt, if_pos ha]
    exact hM (n + 1) (by omega) a ha
  obtain ⟨l, u, x, hx⟩ := Settled.funs hset
  have hlow : ∀ a ∈ cfg.arms, a ≠ b → x b < x a := by
    intro a ha hab
    obtain ⟨-, -, -, -, -, b3⟩ := hx b hb.1
    obtain ⟨-, -, -, -, -, a3⟩ := hx a ha
    have := hb.2 a ha hab
    rw [abs_le] at a3 b3
    linarith
  rcases hans with hans | hans
  · exact lowestVarArms_unique (cfg := { cfg with errorTol := tol, sampleLimit := some lim }) hnd (fun a ha => (hx a ha).2.2.1) hb.1 hlow hans
  · exact checkEnd_unique (cfg := { cfg with errorTol := tol, sampleLimit := some lim }) hnd (fun a ha => (hx a ha).2.2.1) hb.1 hlow hans

end Bandit
end Verif
