import Verif.Lemmas.Termination2
import Verif.Props.Termination
import Verif.Props.Pac
import Verif.Props.Safe
import Verif.Props.Consistency

/-!
# Property C93, continued: runs over sample-splitting arms, and ties
-/

set_option linter.unusedSectionVars false
set_option linter.unusedSimpArgs false

namespace Verif
namespace Bandit
open MeasureTheory ProbabilityTheory Filter Topology

section SampleSplitting
variable {I E W β Ω : Type} [DecidableEq I] [MeasurableSpace Ω] {P : Measure Ω} [IsProbabilityMeasure P]

/-- almost surely, all arms settle at their true values -/
theorem settle_ae (env : BanditEnv W β) (acfg : I → SSConfig β ℝ) (eops : I → EtaOps E β ℝ) (hrep : ∀ a, Arm.ScoreRepeatable (eops a)) (rng : Rng W ℝ)
    (cost : I → ℝ) (cfg : BanditCfg I ℝ) (hnd : cfg.arms.Nodup) {δ : ℝ} (hlev : level cfg = .fin δ) (all : Option (ExpData β))
    (heap : I → I × ArmState E β ℝ) (hheap : ∀ a, (heap a).1 = a ∧ (heap a).2.numPulled = 0) (w0 : Ω → W)
    (X : I → ℕ → Ω → ℝ) (hX : ∀ a ∈ cfg.arms, Iid P (X a)) (h4 : ∀ a ∈ cfg.arms, MemLp (X a 0) 4 P)
    (run : Nat → Py ((I → I × ArmState E β ℝ) × W) (Option (BanditData I ℝ)))
    (hrun : run ∈ [uniformRun env (ssFamily acfg eops rng cost) cfg all, lucbRun env (ssFamily acfg eops rng cost) cfg all,
      seRun env (ssFamily acfg eops rng cost) cfg all])
    (hf : ∀ᵐ ω ∂P, ∀ a ∈ cfg.arms, Arm.Follows (acfg a) (eops a) δ (fun s => StateOf run (heap, w0 ω) a (a, s)) fun n => sample (X a) n ω) :
    ∀ᵐ ω ∂P, ∀ a ∈ cfg.arms, Settles (ssFamily acfg eops rng cost) (fun x => x.2.numPulled) run (heap, w0 ω) a (cost a * Var[X a 0; P]) := by
  have hcons : ∀ᵐ ω ∂P, ∀ a ∈ cfg.arms, Tendsto (fun n => pmean (sample (X a) n ω)) atTop (𝓝 P[X a 0]) ∧
      Tendsto (fun n => pvar (sample (X a) n ω)) atTop (𝓝 Var[X a 0; P]) ∧
      Tendsto (fun n => pvar (sqDevs (sample (X a) n ω))) atTop (𝓝 (varOfSq P (X a 0))) := by
    have : ∀ᵐ ω ∂P, ∀ a : {a // a ∈ cfg.arms}, Tendsto (fun n => pmean (sample (X a) n ω)) atTop (𝓝 P[X a 0]) ∧
        Tendsto (fun n => pvar (sample (X a) n ω)) atTop (𝓝 Var[X a 0; P]) ∧
        Tendsto (fun n => pvar (sqDevs (sample (X a) n ω))) atTop (𝓝 (varOfSq P (X a 0))) := by
      have : Countable {a // a ∈ cfg.arms} := Finite.to_countable
      exact ae_all_iff.mpr fun a => (hX a a.2).consistent (h4 a a.2)
    filter_upwards [this] with ω h a ha
    exact h ⟨a, ha⟩
  filter_upwards [hcons, hf] with ω h1 h2 a ha
  obtain ⟨c1, c2, c3⟩ := h1 a ha
  exact ss_settles hnd hlev hheap run hrun (hrep a) (fun n => Arm.length_sample n ω) c1 c2 c3 (variance_nonneg _ _) (h2 a ha)

/-- **C93** Uniform over sample-splitting arms of any of the three classes of intervals, with their own scores, attributes and costs:
if the scores of every arm follow independent identically distributed random variables with fourth moments, and cost times variance is
smaller for one arm than for all others by more than `error_tol`, then almost every run ends - whatever the sample limit. -/
theorem C93_uniform_consistent (env : BanditEnv W β) (acfg : I → SSConfig β ℝ) (eops : I → EtaOps E β ℝ) (hrep : ∀ a, Arm.ScoreRepeatable (eops a))
    (rng : Rng W ℝ) (cost : I → ℝ) (cfg : BanditCfg I ℝ) (hnd : cfg.arms.Nodup) {δ τ : ℝ} (hlev : level cfg = .fin δ)
    (htol : cfg.errorTol = .fin τ) (hτ : 0 ≤ τ) (all : Option (ExpData β))
    (heap : I → I × ArmState E β ℝ) (hheap : ∀ a, (heap a).1 = a ∧ (heap a).2.numPulled = 0) (w0 : Ω → W)
    (X : I → ℕ → Ω → ℝ) (hX : ∀ a ∈ cfg.arms, Iid P (X a)) (h4 : ∀ a ∈ cfg.arms, MemLp (X a 0) 4 P)
    (hno : ∀ᵐ ω ∂P, NeverRaises (uniformRun env (ssFamily acfg eops rng cost) cfg all) (heap, w0 ω))
    (hf : ∀ᵐ ω ∂P, ∀ a ∈ cfg.arms, Arm.Follows (acfg a) (eops a) δ
      (fun s => StateOf (uniformRun env (ssFamily acfg eops rng cost) cfg all) (heap, w0 ω) a (a, s)) fun n => sample (X a) n ω)
    {b : I} {gap : ℝ} (hb : BestBy cfg.arms (fun a => cost a * Var[X a 0; P]) gap b) (hgap : τ < gap) :
    ∀ᵐ ω ∂P, Ends (uniformRun env (ssFamily acfg eops rng cost) cfg all) (heap, w0 ω) := by
  have h := settle_ae env acfg eops hrep rng cost cfg hnd hlev all heap hheap w0 X hX h4 _ (by simp) hf
  filter_upwards [h, hno] with ω h1 h2
  exact C93_uniform hnd htol hτ ss_counts h2 h1 hb hgap

/-- **C93 (partial)** Successive elimination over sample-splitting arms: likewise, if no two arms have the same cost times variance. -/
theorem C93_successive_elimination_consistent_partial (env : BanditEnv W β) (acfg : I → SSConfig β ℝ) (eops : I → EtaOps E β ℝ)
    (hrep : ∀ a, Arm.ScoreRepeatable (eops a)) (rng : Rng W ℝ) (cost : I → ℝ) (cfg : BanditCfg I ℝ) (hnd : cfg.arms.Nodup) {δ : ℝ}
    (hlev : level cfg = .fin δ) (all : Option (ExpData β))
    (heap : I → I × ArmState E β ℝ) (hheap : ∀ a, (heap a).1 = a ∧ (heap a).2.numPulled = 0) (w0 : Ω → W)
    (X : I → ℕ → Ω → ℝ) (hX : ∀ a ∈ cfg.arms, Iid P (X a)) (h4 : ∀ a ∈ cfg.arms, MemLp (X a 0) 4 P)
    (hno : ∀ᵐ ω ∂P, NeverRaises (seRun env (ssFamily acfg eops rng cost) cfg all) (heap, w0 ω))
    (hf : ∀ᵐ ω ∂P, ∀ a ∈ cfg.arms, Arm.Follows (acfg a) (eops a) δ
      (fun s => StateOf (seRun env (ssFamily acfg eops rng cost) cfg all) (heap, w0 ω) a (a, s)) fun n => sample (X a) n ω)
    (hdist : ∀ a ∈ cfg.arms, ∀ b ∈ cfg.arms, a ≠ b → cost a * Var[X a 0; P] ≠ cost b * Var[X b 0; P]) :
    ∀ᵐ ω ∂P, Ends (seRun env (ssFamily acfg eops rng cost) cfg all) (heap, w0 ω) := by
  have h := settle_ae env acfg eops hrep rng cost cfg hnd hlev all heap hheap w0 X hX h4 _ (by simp) hf
  filter_upwards [h, hno] with ω h1 h2
  exact C93_successive_elimination_partial hnd ss_counts h2 h1 hdist

/-- **C93 (partial)** LUCB over sample-splitting arms: likewise, if cost times variance of any two arms differ by more than `error_tol`, and in almost
every run there are never ties between the arms. -/
theorem C93_lucb_consistent_partial (env : BanditEnv W β) (acfg : I → SSConfig β ℝ) (eops : I → EtaOps E β ℝ) (hrep : ∀ a, Arm.ScoreRepeatable (eops a))
    (rng : Rng W ℝ) (cost : I → ℝ) (cfg : BanditCfg I ℝ) (hnd : cfg.arms.Nodup) {δ τ : ℝ} (hlev : level cfg = .fin δ)
    (htol : cfg.errorTol = .fin τ) (all : Option (ExpData β))
    (heap : I → I × ArmState E β ℝ) (hheap : ∀ a, (heap a).1 = a ∧ (heap a).2.numPulled = 0) (w0 : Ω → W)
    (X : I → ℕ → Ω → ℝ) (hX : ∀ a ∈ cfg.arms, Iid P (X a)) (h4 : ∀ a ∈ cfg.arms, MemLp (X a 0) 4 P)
    (hno : ∀ᵐ ω ∂P, NeverRaises (lucbRun env (ssFamily acfg eops rng cost) cfg all) (heap, w0 ω))
    (hf : ∀ᵐ ω ∂P, ∀ a ∈ cfg.arms, Arm.Follows (acfg a) (eops a) δ
      (fun s => StateOf (lucbRun env (ssFamily acfg eops rng cost) cfg all) (heap, w0 ω) a (a, s)) fun n => sample (X a) n ω)
    (hgen : ∀ᵐ ω ∂P, ∀ n s', 1 ≤ n → lucbRun env (ssFamily acfg eops rng cost) cfg all n (heap, w0 ω) = (.ok none, s') →
      GenericValues (ssFamily acfg eops rng cost) cfg.arms s'.1)
    (hdist : ∀ a ∈ cfg.arms, ∀ b ∈ cfg.arms, a ≠ b → τ < |cost a * Var[X a 0; P] - cost b * Var[X b 0; P]|) :
    ∀ᵐ ω ∂P, Ends (lucbRun env (ssFamily acfg eops rng cost) cfg all) (heap, w0 ω) := by
  have h := settle_ae env acfg eops hrep rng cost cfg hnd hlev all heap hheap w0 X hX h4 _ (by simp) hf
  filter_upwards [h, hno, hgen] with ω h1 h2 h3
  exact C93_lucb_partial hnd htol ss_counts h2 h1 h3 hdist

end SampleSplitting

/-! ## Ties -/

section Ties
variable {I S W β α : Type} [Field α] [LinearOrder α] [IsStrictOrderedRing α] [DecidableEq I]

/-- a run that has ended stays ended -/
theorem ended_more {env : BanditEnv W β} {ops : ArmOps S W β α} {cfg : BanditCfg I α} {all : Option (ExpData β)}
    (run : Nat → Py ((I → S) × W) (Option (BanditData I α)))
    (hrun : run ∈ [uniformRun env ops cfg all, lucbRun env ops cfg all, seRun env ops cfg all]) {n m : Nat} (hnm : n ≤ m)
    {r : BanditData I α} {start s' : (I → S) × W} (h : run n start = (.ok (some r), s')) : run m start = (.ok (some r), s') := by
  obtain ⟨k, rfl⟩ := Nat.exists_eq_add_of_le hnm
  simp only [List.mem_cons, List.not_mem_nil, or_false] at hrun
  rcases hrun with rfl | rfl | rfl
  · have := Py.loop_more (body := uniformRound env ops cfg all) n k Hist.empty start (by
      rw [show Py.loop (uniformRound env ops cfg all) n Hist.empty start = _ from h]; simp)
    exact this.trans h
  · unfold lucbRun at h ⊢
    obtain ⟨d, s1, e1, h⟩ := Arm.bind_inv h
    obtain ⟨h1, s2, e2, h⟩ := Arm.bind_inv h
    rw [Py.bind_apply, e1]
    dsimp only
    rw [Py.bind_apply, e2]
    dsimp only at h ⊢
    rw [Py.loop_more n k _ _ (by rw [h]; simp), h]
  · have := Py.loop_more (body := seRound env ops cfg all) n k (Hist.empty, cfg.arms) start (by
      rw [show Py.loop (seRound env ops cfg all) n (Hist.empty, cfg.arms) start = _ from h]; simp)
    exact this.trans h

/-- **C93** If two arms share the lowest true value, then a run without a sample limit of a constructed bandit with honest intervals ends
with probability at most `error_prob`. -/
theorem C93_ties [MeasurableSpace W] (ι : α →+* ℝ) (μ : Measure W) (arms : List I) (hnd : arms.Nodup)
    (p errorTol : Fl α) (pr : α) (hp : p = .fin pr) (confidence : Option (Fl α)) (units : Nat) {cfg : BanditCfg I α}
    (hcons : construct arms (some p) (some errorTol) confidence (some .pinf) units = .ok cfg)
    (env : BanditEnv W β) (ops : ArmOps S W β α) (all : Option (ExpData β)) (heap : I → S) (θ : I → α)
    (run : Nat → Py ((I → S × List (ExpData β × Fl α)) × W) (Option (BanditData I α)))
    (hrun : run ∈ [uniformRun env ops.logged cfg all, lucbRun env ops.logged cfg all, seRun env ops.logged cfg all])
    (hon : ∀ n, ∀ a ∈ arms, Honest ι μ (run n) heap θ a) {a b : I} (ha : a ∈ arms) (hb : b ∈ arms) (hab : a ≠ b)
    (htie : θ a = θ b) (hmin : ∀ c ∈ arms, θ a ≤ θ c) :
    μ {w | Ends run (startHeap heap, w)} ≤ ENNReal.ofReal (ι pr) := by
  have hset : {w | Ends run (startHeap heap, w)} = ⋃ n, {w | ∃ bd s', run n (startHeap heap, w) = (.ok (some bd), s')} := by
    ext w; simp [Ends]
  rw [hset, Monotone.measure_iUnion]
  · refine iSup_le fun n => ?_
    refine le_trans (measure_mono ?_) (C88_error_probability ι μ arms hnd (by rintro rfl; simp at ha) p errorTol pr hp confidence
      (L := .pinf) rfl units hcons env ops all n heap θ (run n) (by
        simp only [List.mem_cons, List.not_mem_nil, or_false] at hrun ⊢
        rcases hrun with rfl | rfl | rfl <;> simp) (hon n))
    rintro w ⟨bd, s', h⟩
    refine ⟨bd, s', h, ?_, ?_⟩
    · exact fun c _ => rfl
    · rintro ⟨c, hc, -, hlt⟩
      by_cases hca : a = c
      · subst hca
        exact absurd (hlt b hb hab.symm) (by rw [htie]; exact lt_irrefl _)
      · exact absurd (hlt a ha hca) (not_lt.mpr (hmin c hc))
  · intro n m hnm w hw
    obtain ⟨bd, s', h⟩ := hw
    exact ⟨bd, s', ended_more run hrun hnm h⟩

end Ties

end Bandit
end Verif
