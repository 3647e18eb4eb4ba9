import Verif.Lemmas.Coverage2
import Verif.Lemmas.Arms7

/-!
# The intervals of one update in terms of its scores
-/

set_option linter.unusedSectionVars false

namespace Verif
open MeasureTheory ProbabilityTheory Filter Topology

theorem fin_le' (a b : ℝ) : (Fl.fin a).le (.fin b) = true ↔ a ≤ b := by
  simp only [Fl.le, Fl.lt, Fl.eq, Bool.or_eq_true, decide_eq_true_eq]
  exact (le_iff_lt_or_eq).symm

theorem maxStep_le' (a b : ℝ) (hb : 0 ≤ b) : (Fl.maxStep (Fl.fin a) (.fin 0)).le (.fin b) = true ↔ a ≤ b := by
  unfold Fl.maxStep
  split
  · next h =>
    simp only [Fl.lt, decide_eq_true_eq] at h
    rw [fin_le']
    exact ⟨fun _ => by linarith, fun _ => hb⟩
  · exact fin_le' a b

namespace Arm
variable {E β W : Type}

theorem clt_evaluated {cfg : SSConfig β ℝ} (halg : cfg.alg = .clt) {ops : EtaOps E β ℝ} (hrep : ScoreRepeatable ops) {rng : Rng W ℝ}
    {d : ExpData β} {δ : ℝ} {s s' : ArmState E β ℝ} {w w' : W} {lo hi : Fl ℝ}
    (h : ssUpdate cfg ops realLib rng d (.fin δ) (s, w) = (.ok (lo, hi), s', w')) {xs : List ℝ} (hx : EvaluatedOn ops s' xs) :
    0 < δ ∧ δ < 1 ∧ xs ≠ [] ∧ s'.varEst = some (.fin (pvar xs)) ∧
    lo = Fl.maxStep (.fin (pvar xs + quantile (gaussianReal 0 1) (δ / ((s.numPulled : ℝ) + 1) ^ 2 / 2) * √(pvar (sqDevs xs) / xs.length))) (.fin 0) ∧
    hi = .fin (pvar xs + quantile (gaussianReal 0 1) (1 - δ / ((s.numPulled : ℝ) + 1) ^ 2 / 2) * √(pvar (sqDevs xs) / xs.length)) := by
  obtain ⟨⟨δ', hδ, h0, h1⟩, s1, hn, -, hest⟩ := ssUpdate_inv h
  cases hδ; clear h
  refine ⟨h0, h1, ?_⟩
  obtain ⟨l, f1, x1, x2, x3, x4, x5⟩ := hx
  have hk : (s1.numPulled : ℝ) = (s.numPulled : ℝ) + 1 := by rw [hn]; push_cast; ring
  have hk0 : 0 < s1.numPulled := by omega
  cases hest with
  | few l f0 e1 a b c d => rw [d] at x4; cases x4
  | enough l' f0 e1 f1' sc1 e2 sc2 e3 lo hi e4 a b c d e f g hnan hi' =>
    simp only at x1 x5
    rw [a, Option.some.injEq] at x1
    subst x1
    rw [e, Option.some.injEq] at x2
    subst x2
    have e12 := score_again hrep f g
    subst e12
    obtain ⟨ys, hy, rfl, hv⟩ := scores_finite hnan
    rw [hv, mean_fin ys hy] at hi'
    cases hi' with
    | chi2 h => rw [halg] at h; cases h
    | burnIn ew h => rw [halg] at h; cases h
    | finite ew h => rw [halg] at h; cases h
    | clt sc3 e5 _ hsc =>
      have e13 := score_again hrep g hsc
      subst e13
      have := hrep e3 f1'
      rw [hsc] at this
      rw [this, Except.ok.injEq] at x5
      have hxy : ys = xs :=
        List.map_injective_iff.mpr (fun a b h => by injection h) x5
      subst hxy
      refine ⟨hy, by rw [hv], ?_⟩
      have hpos : 0 < f1'.nUnits := by rw [x3]; exact List.length_pos_iff.mpr hy
      rw [cltCi_eq ys hy _ h0 h1 s1.numPulled hk0 f1'.nUnits hpos, hk, x3]
      exact ⟨rfl, rfl⟩

theorem finite_evaluated {cfg : SSConfig β ℝ} (halg : cfg.alg = .finiteSample) {ops : EtaOps E β ℝ} (hrep : ScoreRepeatable ops) {rng : Rng W ℝ}
    {d : ExpData β} {δ : ℝ} {s s' : ArmState E β ℝ} {w w' : W} {lo hi : Fl ℝ}
    (h : ssUpdate cfg ops realLib rng d (.fin δ) (s, w) = (.ok (lo, hi), s', w')) {xs : List ℝ} (hx : EvaluatedOn ops s' xs) {ew : Fl ℝ}
    (hew : ops.csWidth s'.eta (.fin (δ / 2)) cfg.etaSubG cfg.rho = .ok (some ew)) :
    0 < δ ∧ δ < 1 ∧ xs ≠ [] ∧ s'.varEst = some (.fin (pvar xs)) ∧ cfg.tauBound.le (.fin 0) = false ∧ cfg.burnIn.le (.fin 1) = false ∧ cfg.subG.le (.fin 0) = false ∧
    ((Fl.fin (xs.length : ℝ)).lt cfg.burnIn = false →
      lo = Fl.maxStep ((Fl.fin (pvar xs)).sub (fsWidth realLib cfg.subG cfg.tauBound cfg.burnIn (.fin δ) xs.length ew)) (.fin 0) ∧
      hi = (Fl.fin (pvar xs)).add (fsWidth realLib cfg.subG cfg.tauBound cfg.burnIn (.fin δ) xs.length ew)) := by
  obtain ⟨⟨δ', hδ, h0, h1⟩, s1, hn, -, hest⟩ := ssUpdate_inv h
  cases hδ; clear h
  refine ⟨h0, h1, ?_⟩
  obtain ⟨l, f1, x1, x2, x3, x4, x5⟩ := hx
  cases hest with
  | few l f0 e1 a b c d => rw [d] at x4; cases x4
  | enough l' f0 e1 f1' sc1 e2 sc2 e3 lo hi e4 a b c d e f g hnan hi' =>
    simp only at x1 x5
    rw [a, Option.some.injEq] at x1
    subst x1
    rw [e, Option.some.injEq] at x2
    subst x2
    have e12 := score_again hrep f g
    subst e12
    obtain ⟨ys, hy, rfl, hv⟩ := scores_finite hnan
    rw [hv, mean_fin ys hy] at hi'
    have key : e4 = e3 → ys = xs := by
      rintro rfl
      have := hrep e2 f1'
      rw [g] at this
      rw [this, Except.ok.injEq] at x5
      exact List.map_injective_iff.mpr (fun a b h => by injection h) x5
    have hd2 : (Fl.fin δ).div (.fin 2) = .fin (δ / 2) := by simp [Fl.div]
    cases hi' with
    | chi2 h => rw [halg] at h; cases h
    | clt sc3 e5 h => rw [halg] at h; cases h
    | burnIn ew' _ p1 p2 p3 p4 p5 =>
      have hxy := key rfl
      subst hxy
      refine ⟨hy, by rw [hv], p1, p2, p3, ?_⟩
      intro hb
      rw [x3] at p5
      rw [p5] at hb
      cases hb
    | finite ew' _ p1 p2 p3 p4 p5 =>
      have hxy := key rfl
      subst hxy
      refine ⟨hy, by rw [hv], p1, p2, p3, fun _ => ?_⟩
      rw [hd2] at p4
      rw [hew] at p4
      simp only [Except.ok.injEq, Option.some.injEq] at p4
      subst p4
      rw [x3]
      exact ⟨rfl, rfl⟩

end Arm
end Verif
