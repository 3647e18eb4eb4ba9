import Verif.Lemmas.Elimination
import Mathlib.MeasureTheory.Measure.MeasureSpace

/-!
# Property C100: successive elimination of consistent arms ends
-/

set_option linter.unusedSectionVars false
set_option linter.unusedSimpArgs false

namespace Verif
open MeasureTheory Filter Topology

namespace Bandit
open Arm
variable {Ω I E V : Type} [MeasurableSpace Ω] [DecidableEq I] {P : Measure Ω} {acfg : I → SSConfig (Cell ℝ) ℝ} {eops : I → EtaOps E (Cell ℝ) ℝ} {rng : Rng V ℝ} {cost : I → ℝ}
  {env : BanditEnv (Tape V) (Cell ℝ)} {cfg : BanditCfg I ℝ} {k0 : ℕ} {U : ℕ → Ω → Obs ℝ} {kArm : I → ℕ} {view : I → Obs ℝ → Obs ℝ} {δ : ℝ}
  {heap : I → I × ArmState E (Cell ℝ) ℝ} {θ v : I → ℝ}

/-- almost surely the arms run through converging streams, whatever the candidate lists -/
theorem ae_runs' (v0 : V) (hlev : level cfg = .fin δ) (hm : 0 < cfg.unitsPerRound)
    (hshow : ∀ a ∈ cfg.arms, Shows (acfg a).transform k0 (kArm a) (view a))
    (hcons : ∀ a ∈ cfg.arms, ConsistentOnParts P (kArm a) (acfg a) (eops a) rng (fun i ω => view a (U i ω)) cfg.unitsPerRound δ (heap a).2 (θ a) (v a))
    (hnan : ∀ a ∈ cfg.arms, NeverNan (kArm a) (acfg a) (eops a) rng cfg.unitsPerRound δ) :
    ∀ᵐ ω ∂P, ∀ c ∈ patterns cfg.arms, (∀ n, (c (n + 1)).Sublist (c n)) →
      ∃ (s : I → ℕ → ArmState E (Cell ℝ) ℝ) (ci : I → ℕ → Fl ℝ × Fl ℝ), ∀ a ∈ cfg.arms, s a 0 = (heap a).2 ∧
      ArmRuns' acfg eops rng k0 c cfg.unitsPerRound (level cfg) v0 (fun i => U i ω) a (s a) (ci a) ∧
      EstimatesConverge (s a) (θ a) (v a) ∧ IntervalsConverge (ci a) (v a) := by
  rw [ae_ball_iff (patterns_countable cfg.arms)]
  intro c _
  by_cases hc : ∀ n, (c (n + 1)).Sublist (c n)
  swap
  · exact Eventually.of_forall fun ω h => absurd h hc
  have h : ∀ᵐ ω ∂P, ∀ a ∈ {a | a ∈ cfg.arms}, ∃ s ci, s 0 = (heap a).2 ∧
      ArmRuns' acfg eops rng k0 c cfg.unitsPerRound (level cfg) v0 (fun i => U i ω) a s ci ∧ EstimatesConverge s (θ a) (v a) ∧ IntervalsConverge ci (v a) := by
    rw [ae_ball_iff (List.finite_toSet cfg.arms).countable]
    intro a ha
    filter_upwards [hcons a ha (unitNo c cfg.unitsPerRound a) (unitNo_injective (fun n h => (hc n).subset h) hm)
      fun n => seedAt rng cfg.unitsPerRound v0 (updateNo c a n)] with ω ⟨s, ci, h0, h1, h2, h3⟩
    exact ⟨s, ci, h0, ⟨⟨_, _, hshow a ha, by rw [hlev]; exact h1⟩, hnan a ha _ _ _ _ h1⟩, h2, h3⟩
  filter_upwards [h] with ω hω _
  have hω' : ∀ a, ∃ s ci, a ∈ cfg.arms → s 0 = (heap a).2 ∧
      ArmRuns' acfg eops rng k0 c cfg.unitsPerRound (level cfg) v0 (fun i => U i ω) a s ci ∧ EstimatesConverge s (θ a) (v a) ∧ IntervalsConverge ci (v a) := by
    intro a
    by_cases ha : a ∈ cfg.arms
    · obtain ⟨s, ci, h⟩ := hω a ha
      exact ⟨s, ci, fun _ => h⟩
    · exact ⟨fun _ => (heap a).2, fun _ => (.nan, .nan), fun h => absurd h ha⟩
  choose s ci h using hω'
  exact ⟨s, ci, h⟩

/-- the candidate lists of a run, empty when it is over -/
noncomputable def candidates (env : BanditEnv (Tape V) (Cell ℝ)) (ops : ArmOps (I × ArmState E (Cell ℝ) ℝ) (Tape V) (Cell ℝ) ℝ) (cfg : BanditCfg I ℝ)
    (st : (I → I × ArmState E (Cell ℝ) ℝ) × Tape V) (n : ℕ) : List I :=
  match Py.trace (seRound env ops cfg none) ((Hist.empty, cfg.arms), st) n with
  | some p => p.1.2
  | none => []

section
variable {ops : ArmOps (I × ArmState E (Cell ℝ) ℝ) (Tape V) (Cell ℝ) ℝ} {st : (I → I × ArmState E (Cell ℝ) ℝ) × Tape V}

theorem candidates_zero : candidates env ops cfg st 0 = cfg.arms := rfl

theorem candidates_filter (hnd : cfg.arms.Nodup) (n : ℕ) : (candidates env ops cfg st n).Sublist cfg.arms ∧
    ∃ p : I → Bool, candidates env ops cfg st (n + 1) = (candidates env ops cfg st n).filter p := by
  have step : ∀ n, (candidates env ops cfg st n).Sublist cfg.arms → ∃ p : I → Bool, candidates env ops cfg st (n + 1) = (candidates env ops cfg st n).filter p := by
    intro n hsub
    rcases h : Py.trace (seRound env ops cfg none) ((Hist.empty, cfg.arms), st) (n + 1) with _ | p
    · exact ⟨fun _ => false, by simp [candidates, h]⟩
    · obtain ⟨q, h1, h2⟩ := Py.trace_step h
      have hq : candidates env ops cfg st n = q.1.2 := by simp [candidates, h1]
      have hp : candidates env ops cfg st (n + 1) = p.1.2 := by simp [candidates, h]
      rw [hq] at hsub ⊢
      rw [hp]
      obtain ⟨-, ps, e1, -, -, -, m, -, -, e2⟩ := se_step hnd hsub h2
      exact ⟨_, by rw [e2, RoundRec.arms, e1]⟩
  have hsub : ∀ n, (candidates env ops cfg st n).Sublist cfg.arms := by
    intro n
    induction n with
    | zero => exact List.Sublist.refl _
    | succ n ih =>
      obtain ⟨p, hp⟩ := step n ih
      rw [hp]
      exact List.filter_sublist.trans ih
  exact ⟨hsub n, step n (hsub n)⟩

end

/-- **C100**: take consistent arms with positive costs whose values (cost times variance of the score) are all different.  Fed with independent units, successive
elimination almost surely raises no exception and comes to an end, whatever the sample limit (infinite or not, but not negative) and the state of the generator that
shuffles. -/
theorem C100_ends (hgen : env.generate = Tape.generate k0) (hnd : cfg.arms.Nodup) (hm : 0 < cfg.unitsPerRound) (hlev : level cfg = .fin δ)
    {lim : Fl ℝ} (hlim : cfg.sampleLimit = some lim) (hlim0 : lim.lt (.fin 0) = false) (hcov : ∀ i ω, (U i ω).z.length = k0)
    (hheap : ∀ a, (heap a).1 = a) (hshow : ∀ a ∈ cfg.arms, Shows (acfg a).transform k0 (kArm a) (view a)) (hcost : ∀ a ∈ cfg.arms, 0 < cost a)
    (hcons : ∀ a ∈ cfg.arms, ConsistentOnParts P (kArm a) (acfg a) (eops a) rng (fun i ω => view a (U i ω)) cfg.unitsPerRound δ (heap a).2 (θ a) (v a))
    (hnan : ∀ a ∈ cfg.arms, NeverNan (kArm a) (acfg a) (eops a) rng cfg.unitsPerRound δ)
    (hdist : ∀ a ∈ cfg.arms, ∀ b ∈ cfg.arms, a ≠ b → cost a * v a ≠ cost b * v b) (v0 : V) :
    ∀ᵐ ω ∂P, NeverRaises (seRun env (ssFamily acfg eops (Tape.rng rng) cost) cfg none) (heap, ⟨fun i => U i ω, 0, v0⟩) ∧
      Ends (seRun env (ssFamily acfg eops (Tape.rng rng) cost) cfg none) (heap, ⟨fun i => U i ω, 0, v0⟩) := by
  filter_upwards [ae_runs' v0 hlev hm hshow hcons hnan] with ω hω
  let ops := ssFamily acfg eops (Tape.rng rng) cost
  let st0 : (I → I × ArmState E (Cell ℝ) ℝ) × Tape V := (heap, ⟨fun i => U i ω, 0, v0⟩)
  let c := candidates env ops cfg st0
  have hfil := fun n => candidates_filter (env := env) (ops := ops) (st := st0) hnd n
  have hc : ∀ n, (c (n + 1)).Sublist (c n) := fun n => by
    obtain ⟨p, hp⟩ := (hfil n).2
    show (candidates env ops cfg st0 (n + 1)).Sublist (candidates env ops cfg st0 n)
    rw [hp]
    exact List.filter_sublist
  obtain ⟨s, ci, h⟩ := hω c ⟨fun n => (hfil n).1, lists_stop c fun n => (hfil n).2⟩ hc
  have hruns := fun a ha => (h a ha).2.1
  have hround := post_se_round (cost := cost) (heap0 := heap) (env := env) (X := fun _ _ => False) hnd (fun i => hcov i ω) hc rfl hruns hgen hcost hlim hlim0
  have hstate : ∀ n p, Py.trace (seRound env ops cfg none) ((Hist.empty, cfg.arms), st0) n = some p →
      p.1.2 = c n ∧ p.2 = seState rng cfg.arms cfg.unitsPerRound heap c s (fun i => U i ω) v0 n ∧ (n = 0 → p.1.1.total = 0) := by
    intro n
    induction n with
    | zero =>
      rintro p hp
      obtain rfl := Option.some.inj hp
      refine ⟨rfl, ?_, fun _ => rfl⟩
      refine Prod.ext ?_ ?_
      · funext a
        simp only [seState, armsAt, st0]
        split
        · rename_i ha
          rw [(h a ha).1]
          exact Prod.ext (hheap a) rfl
        · rfl
      · simp [seState, seedAt, offset, st0]
    | succ n ih =>
      intro p hp
      refine ⟨by simp [c, candidates, hp], ?_, fun h => by cases h⟩
      obtain ⟨⟨⟨hist, cs⟩, sq⟩, h1, h2⟩ := Py.trace_step hp
      obtain ⟨e1, e2, e3⟩ := ih _ h1
      dsimp only at e1 e2 e3 h2
      subst e1 e2
      obtain ⟨x, s', g1, g2⟩ := (hround n hist e3).returns rfl
      rw [g1] at h2
      simp only [Prod.mk.injEq, Except.ok.injEq] at h2
      obtain ⟨rfl, rfl⟩ := h2
      exact g2 rfl
  have hok : ∀ n p, Py.trace (seRound env ops cfg none) ((Hist.empty, cfg.arms), st0) n = some p → ∃ x s', seRound env ops cfg none p.1 p.2 = (.ok x, s') := by
    rintro n ⟨⟨hist, cs⟩, sq⟩ hp
    obtain ⟨e1, e2, e3⟩ := hstate n _ hp
    dsimp only at e1 e2 e3 ⊢
    subst e1 e2
    obtain ⟨x, s', g1, -⟩ := (hround n hist e3).returns rfl
    exact ⟨x, s', g1⟩
  have hloop := fun fuel => Py.loop_trace hok fuel 0 _ rfl
  have hno : NeverRaises (seRun env ops cfg none) st0 := by
    intro n e s' he
    obtain ⟨o, s'', h1, -⟩ := hloop n
    have : seRun env ops cfg none n st0 = (.ok o, s'') := h1
    rw [this] at he
    cases he
  refine ⟨hno, C93_successive_elimination_partial hnd ss_counts hno (fun a ha => ?_) hdist⟩
  intro e he
  obtain ⟨-, h1, h3, h4⟩ := h a ha
  obtain ⟨M, hM⟩ := settled_of_intervals (cost := cost) (acfg := acfg) (eops := eops) (rng := rng) (a := a) (fun n => (h1.state n).2.1) h3 h4 he
  refine ⟨M, fun n s' hn hle => ?_⟩
  obtain ⟨o, s'', e1, e2⟩ := hloop n
  have e1' : seRun env ops cfg none n st0 = (.ok o, s'') := e1
  rw [show seRun env (ssFamily acfg eops (Tape.rng rng) cost) cfg none n (heap, ⟨fun i => U i ω, 0, v0⟩) = _ from e1'] at hn
  simp only [Prod.mk.injEq, Except.ok.injEq] at hn
  obtain ⟨rfl, rfl⟩ := hn
  obtain ⟨hist, ht⟩ := e2 rfl
  obtain ⟨-, hs, -⟩ := hstate _ _ ht
  dsimp only at hs
  subst hs
  obtain ⟨j, hj, -⟩ := armsAt_arm (heap0 := heap) (s := s) (c := c) ha rfl (0 + n)
  have hN : (seState rng cfg.arms cfg.unitsPerRound heap c s (fun i => U i ω) v0 (0 + n)).1 a = (a, s a j) := hj
  rw [hN] at hle ⊢
  refine hM j ?_
  rw [← (h1.state j).1]
  exact hle

end Bandit
end Verif
